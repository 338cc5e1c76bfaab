import Verif.Javascript.Osm2shapeProps

/-
C110: which configurations are accepted, that the program comes to its end, what is in the files, and where
this is not what is expected.
-/
namespace Osmium
open Spec Text

namespace Spec

/-- `P before x` for each element `x` of the list and the elements before it. (specification, no counterpart in /repo)
-/
def Throughout {β : Type} (P : List β → β → Prop) (l : List β) : Prop :=
  ∀ before x after, l = before ++ x :: after → P before x

/-- The types of shapefiles and columns are known. (specification, no counterpart in /repo) -/
def KnownTypes : FileCall → Prop
  | .type t => t = "point" ∨ t = "line" ∨ t = "polygon"
  | .column _ t _ => t = "integer" ∨ t = "string" ∨ t = "bool" ∨ t = "double"
  | .filename _ => True

/-- Shapefiles and columns are defined before they are used in rules.  (The names of functions every object of a
script has count as defined.) (specification, no counterpart in /repo) -/
def StmtOk (before : List ConfigStmt) : ConfigStmt → Prop
  | .shapefile _ calls => ∀ c ∈ calls, KnownTypes c
  | .rule _ _ _ calls => Throughout (fun earlier c => match c with
    | .output name => (shapefileDef before name).isSome ∨ name ∈ inheritedNames
    | .attr a _ => ∃ file def_, outputOf earlier = some file ∧ shapefileDef before file = some def_ ∧
        (a ∈ (columnsOf def_).map (·.name) ∨ a ∈ inheritedNames)) calls

/-- A configuration without mistakes. (specification, no counterpart in /repo) -/
def ValidConfig (cfg : List ConfigStmt) : Prop := Throughout StmtOk cfg

/-- A shapefile that takes all values: it has columns, with names of 1 to 11 bytes and sizes up to 255, and none
of type double. -/
def GoodColumns (calls : List FileCall) : Prop :=
  columnsOf calls ≠ [] ∧ (columnsOf calls).length ≤ 2047 ∧
    ∀ c ∈ columnsOf calls, c.name ≠ "" ∧ c.name.utf8ByteSize ≤ 11 ∧ c.type ≠ "double" ∧ 0 ≤ c.size ∧ c.size ≤ 255

/-- A text without a character outside of the first 65536 that begins at the 256th unit. (specification, no
counterpart in /repo) -/
def Storable (v : String) : Prop := OsmText v ∧ ∀ u, (utf16 v.toList)[255]? = some u → isLead u = false

end Spec

theorem throughout_nil {β : Type} (P : List β → β → Prop) : Throughout P [] := by
  intro b x a h
  simp at h

theorem throughout_snoc {β : Type} (P : List β → β → Prop) (l : List β) (y : β) :
    Throughout P (l ++ [y]) ↔ Throughout P l ∧ P l y := by
  constructor
  · intro h
    exact ⟨fun b x a e => h b x (a ++ [y]) (by rw [e]; simp), h l y [] rfl⟩
  · rintro ⟨h1, h2⟩ b x a e
    cases a using List.reverseRecOn with
    | nil =>
      have := List.append_inj' e rfl
      cases this.2
      rw [← this.1]
      exact h2
    | append_singleton a z =>
      have e' : l ++ [y] = (b ++ x :: a) ++ [z] := by rw [e]; simp
      have := List.append_inj' e' rfl
      exact h1 b x a this.1

/-! ### Which configurations are accepted -/

theorem fileCalls_ok (f : ShapeDef) (calls : List FileCall) :
    (∃ g, callChain fileCall f calls = .ok g) ↔ ∀ c ∈ calls, KnownTypes c := by
  induction calls generalizing f with
  | nil => simp [callChain]
  | cons c calls ih =>
    have step : (∃ g, fileCall f c = .ok g) ↔ KnownTypes c := by
      cases c with
      | type t =>
        simp only [fileCall, KnownTypes]
        by_cases h : t ≠ "point" ∧ t ≠ "line" ∧ t ≠ "polygon"
        · rw [if_pos h]; simp [h]
        · rw [if_neg h]
          simp only [Except.ok.injEq, exists_eq', true_iff]
          by_contra hc
          simp only [not_or] at hc
          exact h hc
      | column n t s =>
        simp only [fileCall, KnownTypes]
        by_cases h : t ≠ "integer" ∧ t ≠ "string" ∧ t ≠ "bool" ∧ t ≠ "double"
        · rw [if_pos h]; simp [h]
        · rw [if_neg h]
          simp only [Except.ok.injEq, exists_eq', true_iff]
          by_contra hc
          simp only [not_or] at hc
          exact h hc
      | filename n => simp [fileCall, KnownTypes]
    rw [List.forall_mem_cons, ← step]
    simp only [callChain]
    cases fileCall f c with
    | error e => simp
    | ok g => simpa using ih g

theorem jsOwn_columns (cs : List ShapeColumn) (a : String) :
    (jsOwn (cs.map fun c => (c.name, c)) a).isSome = true ↔ a ∈ cs.map (·.name) := by
  induction cs with
  | nil => simp [jsOwn]
  | cons c cs ih =>
    simp only [List.map_cons, jsOwn, List.mem_cons]
    by_cases h : c.name = a
    · simp [h]
    · simp only [if_neg h, ih]
      simp [Ne.symm h]

theorem jsHas_iff {α : Type} (l : List (String × α)) (n : String) :
    jsHas l n = true ↔ (jsOwn l n).isSome = true ∨ n ∈ inheritedNames := by
  simp [jsHas]

/-- **C110** (mistakes in the configuration): a configuration is accepted exactly if all types are known and all
shapefiles and columns used in rules have been defined before. -/
theorem config_accepted_iff (cfg : List ConfigStmt) : (∃ s, loadConfig cfg = .ok s) ↔ ValidConfig cfg := by
  unfold ValidConfig
  induction cfg using List.reverseRecOn with
  | nil => exact ⟨fun _ => throughout_nil _, fun _ => ⟨_, rfl⟩⟩
  | append_singleton cfg st ih =>
    rw [throughout_snoc, ← ih]
    unfold loadConfig at ih ⊢
    rw [callChain_append]
    cases hl : callChain configStmt ShapeState.new cfg with
    | error e => simp
    | ok s =>
      obtain ⟨m1, m2, -⟩ := loadConfig_meaning hl
      simp only [callChain, Except.ok.injEq, exists_eq', true_and]
      cases st with
      | shapefile n calls =>
        simp only [configStmt, StmtOk]
        rw [← fileCalls_ok ⟨n, "point", [], none⟩ calls]
        cases callChain fileCall ⟨n, "point", [], none⟩ calls with
        | error e => simp
        | ok f => simp
      | rule kind key value calls =>
        have gen : ∀ calls, (∃ r, callChain (ruleCall s.files) ⟨key, ruleValue value, none, [], none⟩ calls = .ok r) ↔
            StmtOk cfg (.rule kind key value calls) := by
          intro calls
          simp only [StmtOk]
          induction calls using List.reverseRecOn with
          | nil => exact ⟨fun _ => throughout_nil _, fun _ => ⟨_, rfl⟩⟩
          | append_singleton calls c ihc =>
            rw [throughout_snoc, ← ihc, callChain_append]
            cases hc : callChain (ruleCall s.files) ⟨key, ruleValue value, none, [], none⟩ calls with
            | error e => simp
            | ok r =>
              obtain ⟨-, -, -, r4, -, -⟩ := ruleCalls_rule hc
              simp only [callChain, Except.ok.injEq, exists_eq', true_and]
              cases c with
              | output n =>
                simp only [ruleCall]
                rw [← m1 n]
                by_cases hb : (!jsHas s.files n) = true
                · rw [if_pos hb]
                  have : ¬ (jsHas s.files n = true) := by simpa using hb
                  rw [jsHas_iff] at this
                  simp [this]
                · rw [if_neg hb]
                  have : jsHas s.files n = true := by simpa using hb
                  rw [jsHas_iff] at this
                  simp [this]
              | attr a k =>
                simp only [ruleCall]
                rw [← r4]
                cases hf : r.file with
                | none => simp
                | some file =>
                  have h1 := m1 file
                  cases ho : jsOwn s.files file with
                  | none =>
                    rw [ho] at h1
                    have : shapefileDef cfg file = none := by
                      cases hd : shapefileDef cfg file with
                      | none => rfl
                      | some d => rw [hd] at h1; cases h1
                    simp [ho, this]
                  | some f =>
                    rw [ho] at h1
                    cases hd : shapefileDef cfg file with
                    | none => rw [hd] at h1; cases h1
                    | some d =>
                      obtain ⟨-, h2, -⟩ := m2 file f d ho hd
                      simp only [ho]
                      rw [h2]
                      by_cases hb : (!jsHas ((columnsOf d).map fun c => (c.name, c)) a) = true
                      · rw [if_pos hb]
                        have : ¬ (jsHas ((columnsOf d).map fun c => (c.name, c)) a = true) := by simpa using hb
                        rw [jsHas_iff, jsOwn_columns] at this
                        simp only [reduceCtorEq, exists_false, false_iff]
                        rintro ⟨file', def_, e1, e2, e3⟩
                        cases e1
                        rw [hd] at e2
                        cases e2
                        exact this e3
                      · rw [if_neg hb]
                        have : jsHas ((columnsOf d).map fun c => (c.name, c)) a = true := by simpa using hb
                        rw [jsHas_iff, jsOwn_columns] at this
                        simp only [Except.ok.injEq, exists_eq', true_iff]
                        exact ⟨file, d, rfl, hd, this⟩
        rw [← gen calls]
        simp only [configStmt]
        cases callChain (ruleCall s.files) ⟨key, ruleValue value, none, [], none⟩ calls with
        | error e => simp
        | ok f => simp

/-- A rule for a shapefile that is not there, and one for a column that is not there. -/
example : ¬ ValidConfig (exampleConfig ++ [.rule .way "a" .null [.output "nowhere"]]) ∧
    ¬ ValidConfig (exampleConfig ++ [.rule .way "a" .null [.output "roads", .attr "surface" none]]) ∧
    ValidConfig exampleConfig := by
  have ok : (loadConfig exampleConfig).toOption.isSome = true := by decide +kernel
  have e1 : (loadConfig (exampleConfig ++ [.rule .way "a" .null [.output "nowhere"]])).toOption.isSome = false := by
    decide +kernel
  have e2 : (loadConfig (exampleConfig ++ [.rule .way "a" .null [.output "roads", .attr "surface" none]])).toOption.isSome
      = false := by
    decide +kernel
  refine ⟨fun h => ?_, fun h => ?_, ?_⟩
  · obtain ⟨s, hs⟩ := (config_accepted_iff _).2 h
    rw [hs] at e1; cases e1
  · obtain ⟨s, hs⟩ := (config_accepted_iff _).2 h
    rw [hs] at e2; cases e2
  · rw [← config_accepted_iff]
    cases hl : loadConfig exampleConfig with
    | error e => rw [hl] at ok; cases ok
    | ok s => exact ⟨s, rfl⟩

/-! ### What is in the files -/

theorem rows_fields {type : ShpType} {L : List (ShpShape × DbfRow)} (cols : List ShapeColumn) (calls : List ShpCall) :
    ∀ fields, Rows type fields (cols.map (fun c => .addField (columnArgs c)) ++ calls) L →
      ∃ fs, List.Forall₂ (fun c f => FieldOf (columnArgs c) f) cols fs ∧ Rows type (fields ++ fs) calls L := by
  induction cols with
  | nil => intro fields h; exact ⟨[], .nil, by simpa using h⟩
  | cons c cols ih =>
    intro fields h
    obtain ⟨f, h1, h2⟩ := h
    obtain ⟨fs, h3, h4⟩ := ih _ h2
    exact ⟨f :: fs, .cons h1 h3, by simpa using h4⟩

theorem rows_close {type : ShpType} (calls : List ShpCall) : ∀ {fields : List DbfField} {L : List (ShpShape × DbfRow)},
    Rows type fields (calls ++ [.close]) L → Rows type fields calls L := by
  induction calls with
  | nil => intro fields L h; exact h
  | cons c calls ih =>
    intro fields L h
    cases c with
    | close => exact ih (fields := fields) h
    | addField args =>
      obtain ⟨f, h1, h2⟩ := h
      exact ⟨f, h1, ih h2⟩
    | add g attrs =>
      rcases h with ⟨h1, h2⟩ | ⟨s, row, L', h1, h2, h3, h4, h5⟩
      · exact Or.inl ⟨h1, ih h2⟩
      · exact Or.inr ⟨s, row, L', h1, h2, h3, h4, ih h5⟩

/-- **C110 (partial as above).**  At the end each shapefile of the configuration is closed, has its columns, and
contains one shape with its record for each object and each rule for this file that applies and whose geometry
is of the type of the file, in order. -/
theorem osm2shape_records_partial (fits : DbfField → DbfValue → Bool) (toInt32 : JsString → Int)
    (cfg : List ConfigStmt) (os : List ShapeObj) (s : ShapeState) (hg : GoodRules cfg)
    (ht : ∀ o ∈ os, ∀ t ∈ o.tags, OsmText t.value) (h : osm2shape fits toInt32 cfg os = .ok s)
    (name : String) (calls : List FileCall) (hn : shapefileDef cfg name = some calls) :
    ∃ t fields, tableOf s.files name = some (t, false) ∧
      List.Forall₂ (fun c f => FieldOf (columnArgs c) f) (columnsOf calls) fields ∧
      ∃ t0, scriptOpenShp (geometryType calls) = .ok t0 ∧
        Rows t0.base.type fields (additions toInt32 cfg name os) (contents t) := by
  obtain ⟨t0, t, rs, h1, h2, h3⟩ := osm2shape_calls_partial fits toInt32 cfg os s hg ht h name calls hn
  obtain ⟨h4, -⟩ := shapefile_of_script_partial fits _ t0 t _ rs h1 h3
  rw [List.append_assoc] at h4
  obtain ⟨fs, h5, h6⟩ := rows_fields _ _ _ h4
  exact ⟨t, fs, h2, h5, t0, h1, rows_close _ (by simpa using h6)⟩

/-! ### Names of the files -/

/-- The name of the file of a shapefile: the last one given, otherwise the name of the shapefile. (specification, no
counterpart in /repo) -/
def Spec.fileNameOf (name : String) (calls : List FileCall) : String :=
  (calls.filterMap fun c => match c with
    | .filename n => some n
    | _ => none).getLast?.getD name

theorem fileCalls_fname {name : String} {calls : List FileCall} {f : ShapeDef}
    (h : callChain fileCall ⟨name, "point", [], none⟩ calls = .ok f) : f.fname = fileNameOf name calls := by
  induction calls using List.reverseRecOn generalizing f with
  | nil => cases h; rfl
  | append_singleton calls c ih =>
    rw [callChain_append] at h
    cases hc : callChain fileCall ⟨name, "point", [], none⟩ calls with
    | error e => rw [hc] at h; cases h
    | ok g =>
      rw [hc] at h
      have hg := ih hc
      simp only [callChain] at h
      cases c with
      | type t =>
        simp only [fileCall] at h
        by_cases hb : t ≠ "point" ∧ t ≠ "line" ∧ t ≠ "polygon"
        · rw [if_pos hb] at h; cases h
        · rw [if_neg hb] at h
          cases h
          simpa [fileNameOf] using hg
      | column n t s =>
        simp only [fileCall] at h
        by_cases hb : t ≠ "integer" ∧ t ≠ "string" ∧ t ≠ "bool" ∧ t ≠ "double"
        · rw [if_pos hb] at h; cases h
        · rw [if_neg hb] at h
          cases h
          simpa [fileNameOf] using hg
      | filename n =>
        simp only [fileCall] at h
        cases h
        simp [fileNameOf]

theorem loadConfig_fname {cfg : List ConfigStmt} {s : ShapeState} (h : loadConfig cfg = .ok s) (name : String) :
    (jsOwn s.files name).map (·.fname) = (shapefileDef cfg name).map (fileNameOf name) := by
  unfold loadConfig at h
  induction cfg using List.reverseRecOn generalizing s with
  | nil => cases h; rfl
  | append_singleton cfg st ih =>
    rw [callChain_append] at h
    cases hc : callChain configStmt ShapeState.new cfg with
    | error e => rw [hc] at h; cases h
    | ok s0 =>
      rw [hc] at h
      have i := ih hc
      simp only [callChain] at h
      cases st with
      | shapefile n calls =>
        simp only [configStmt] at h
        cases hf : callChain fileCall ⟨n, "point", [], none⟩ calls with
        | error e => rw [hf] at h; cases h
        | ok f =>
          rw [hf] at h
          cases h
          have hd : shapefileDef (cfg ++ [.shapefile n calls]) name =
              if n = name then some calls else shapefileDef cfg name := by
            unfold shapefileDef
            by_cases hn : n = name <;> simp [hn]
          rw [hd, jsOwn_jsPut]
          by_cases hn : n = name
          · subst hn
            simp [fileCalls_fname hf]
          · rw [if_neg hn, if_neg hn]; exact i
      | rule kind key value calls =>
        simp only [configStmt] at h
        cases hf : callChain (ruleCall s0.files) ⟨key, ruleValue value, none, [], none⟩ calls with
        | error e => rw [hf] at h; cases h
        | ok r =>
          rw [hf] at h
          cases h
          rw [files_setRules, i]
          simp [shapefileDef]

theorem checkRules_fname {fits : DbfField → DbfValue → Bool} {toInt32 : JsString → Int} {o : ShapeObj}
    (rs : List ShapeRule) {files files' : List (String × ShapeDef)} (h : checkRules fits toInt32 o files rs = .ok files')
    (name : String) : (jsOwn files' name).map (·.fname) = (jsOwn files name).map (·.fname) := by
  induction rs generalizing files with
  | nil => cases h; rfl
  | cons r rs ih =>
    rw [checkRules] at h
    cases hb : r.built with
    | none => rw [hb] at h; cases h; rfl
    | some m =>
      rw [hb] at h
      simp only at h
      cases hm : ruleMatches o.tags m with
      | error e => rw [hm] at h; cases h
      | ok b =>
        rw [hm] at h
        cases b with
        | false => exact ih h
        | true =>
          simp only at h
          cases ht : tags2attributes toInt32 o.id o.tags r.attrs with
          | error e => rw [ht] at h; cases h
          | ok attrs =>
            rw [ht] at h
            simp only at h
            cases hf : r.file with
            | none => rw [hf] at h; cases h; rfl
            | some n =>
              rw [hf] at h
              simp only at h
              cases hj : jsOwn files n with
              | none => rw [hj] at h; cases h; rfl
              | some f =>
                rw [hj] at h
                simp only at h
                cases hs : f.shp with
                | none => rw [hs] at h; cases h; rfl
                | some p =>
                  rw [hs] at h
                  simp only at h
                  cases hc : shpCall fits p (.add o.geom fun k => (jsOwn attrs k).getD .missing) with
                  | error e => rw [hc] at h; cases h
                  | ok p' =>
                    rw [hc] at h
                    rw [ih h, jsOwn_jsPut]
                    by_cases hn : n = name
                    · subst hn; simp [hj]
                    · rw [if_neg hn]

/-- **C110** (names of the files): each shapefile of the configuration is written under the name the configuration
gives, and there are no others. -/
theorem osm2shape_file_names (fits : DbfField → DbfValue → Bool) (toInt32 : JsString → Int)
    (cfg : List ConfigStmt) (os : List ShapeObj) (s : ShapeState) (h : osm2shape fits toInt32 cfg os = .ok s)
    (name : String) : (jsOwn s.files name).map (·.fname) = (shapefileDef cfg name).map (fileNameOf name) := by
  unfold osm2shape at h
  cases hl : loadConfig cfg with
  | error e => rw [hl] at h; cases h
  | ok s0 =>
    rw [hl] at h
    rw [← loadConfig_fname hl]
    simp only [shapeRun] at h
    cases hi : shapeInit fits s0 with
    | error e => rw [hi] at h; cases h
    | ok s1 =>
      rw [hi] at h
      simp only at h
      have h1 : (jsOwn s1.files name).map (·.fname) = (jsOwn s0.files name).map (·.fname) := by
        unfold shapeInit at hi
        cases hf : initFiles fits s0.files with
        | error e => rw [hf] at hi; cases hi
        | ok files =>
          rw [hf] at hi
          cases hi
          have := initFiles_tables hf name
          cases hj : jsOwn s0.files name with
          | none => rw [hj] at this; simp only at this; rw [this]
          | some f =>
            rw [hj] at this
            obtain ⟨g, h1, h2⟩ := this
            rw [h2]
            unfold openShape at h1
            cases ho : scriptOpenShp f.gtype with
            | error e => rw [ho] at h1; cases h1
            | ok t =>
              rw [ho] at h1
              simp only at h1
              cases hcc : callChain (fun h c => shpCall fits h (.addField (columnArgs c))) (t, true) f.columns with
              | error e => rw [hcc] at h1; cases h1
              | ok p => rw [hcc] at h1; cases h1; rfl
      rw [← h1]
      clear hi h1
      have gen : ∀ (os : List ShapeObj) (st st' : ShapeState), callChain (shapeObject fits toInt32) st os = .ok st' →
          (jsOwn st'.files name).map (·.fname) = (jsOwn st.files name).map (·.fname) := by
        intro os
        induction os with
        | nil => intro st st' h; cases h; rfl
        | cons o os ih =>
          intro st st' h
          simp only [callChain, shapeObject] at h
          cases hc : checkRules fits toInt32 o st.files (st.rules o.kind) with
          | error e => rw [hc] at h; cases h
          | ok files1 =>
            rw [hc] at h
            rw [ih _ _ h]
            exact checkRules_fname _ hc name
      cases hc : callChain (shapeObject fits toInt32) s1 os with
      | error e => rw [hc] at h; cases h
      | ok s2 =>
        rw [hc] at h
        cases h
        rw [← gen os s1 s2 hc]
        have : ∀ l : List (String × ShapeDef), (jsOwn (l.map fun p => (p.1, { p.2 with shp := p.2.shp.map fun h : ShpTable × Bool => (h.1, false) })) name).map
            (·.fname) = (jsOwn l name).map (·.fname) := by
          intro l
          induction l with
          | nil => rfl
          | cons p l ih =>
            obtain ⟨k, f⟩ := p
            simp only [List.map_cons, jsOwn]
            by_cases hk : k = name
            · rw [if_pos hk, if_pos hk]; rfl
            · rw [if_neg hk, if_neg hk]; exact ih
        exact this s2.files

/-- A shapefile with a name of its own, and one without. -/
example : fileNameOf "roads" [.type "line", .filename "out/roads2012"] = "out/roads2012" ∧
    fileNameOf "roads" [.type "line"] = "roads" := by decide

/-! ### The program comes to its end -/

/-- A table that takes all values. (helper for statements and proofs, no counterpart in /repo) -/
def TableGood (t : ShpTable) : Prop :=
  t.base.fields ≠ [] ∧ t.rows.length = t.base.cur.shapes.length ∧
    ∀ f ∈ t.base.fields, f.type ≠ .double ∧ 0 ≤ f.width

/-- A value that can be stored in any column but one of type double. (helper for statements and proofs, no counterpart
in /repo) -/
def AttrGood (a : ScriptAttr) : Prop :=
  ∀ text i, a = .value text i → ∀ width : Int, 0 ≤ width → ∃ b, scriptString width text = .ok b

theorem scriptValue_ok {f : DbfField} {a : ScriptAttr} (hf : f.type ≠ .double) (hw : 0 ≤ f.width) (ha : AttrGood a) :
    ∃ v, scriptValue f a = .ok v := by
  cases a with
  | missing => exact ⟨_, rfl⟩
  | empty => exact ⟨_, rfl⟩
  | value text i =>
    simp only [scriptValue]
    cases ht : f.type with
    | string =>
      obtain ⟨b, hb⟩ := ha text i rfl f.width hw
      exact ⟨.string b, by simp only [hb]; rfl⟩
    | integer => exact ⟨_, rfl⟩
    | double => exact absurd ht hf
    | logical => exact ⟨_, rfl⟩

theorem shpCall_add_ok {fits : DbfField → DbfValue → Bool} (hfits : ∀ f v, fits f v = true) {t : ShpTable}
    (hg : TableGood t) (g : Option ShpShape) (attrs : String → ScriptAttr) (ha : ∀ k, AttrGood (attrs k)) :
    ∃ t', shpCall fits (t, true) (.add g attrs) = .ok (t', true) ∧ TableGood t' := by
  have key : ∃ t', scriptAdd fits t g attrs = .ok (t', 1) ∧ TableGood t' := by
    by_cases h : ∀ s, g = some s → s.type ≠ t.base.type
    · exact ⟨t, script_add_illegal fits t g attrs h, hg⟩
    · push Not at h
      obtain ⟨s, rfl, hs⟩ := h
      obtain ⟨t', h1, h2, h3, h4⟩ := script_add_succeeds fits t s attrs hs hg.1 hg.2.1 (fun f hf => by
        obtain ⟨h1, h2⟩ := hg.2.2 f hf
        obtain ⟨v, hv⟩ := scriptValue_ok h1 h2 (ha f.name)
        exact ⟨v, hv, hfits f v⟩)
      exact ⟨t', h1, by rw [h2]; exact hg.1, h4, by rw [h2]; exact hg.2.2⟩
  obtain ⟨t', h1, h2⟩ := key
  refine ⟨t', ?_, h2⟩
  simp only [shpCall, shpRun, true_or, if_true, h1]
  rfl

theorem attrGood_text {cs : List Char} (h : ∀ u, (utf16 cs)[255]? = some u → isLead u = false) (i : Int) :
    AttrGood (.value (utf16 cs) i) := by
  intro text j e width hw
  cases e
  exact (script_text_accepted_iff width hw cs).2 h

theorem ascii_storable {cs : List Char} (h : ∀ c ∈ cs, c.toNat < 128) (u : UInt16) (hu : u ∈ utf16 cs) :
    isLead u = false := by
  rw [utf16_eq, List.mem_flatMap] at hu
  obtain ⟨c, hc, hu⟩ := hu
  have := h c hc
  unfold utf16Char at hu
  rw [if_pos (by omega), List.mem_singleton] at hu
  subst hu
  unfold isLead
  rw [u16_toNat (by omega)]
  simp only [Bool.and_eq_false_iff, decide_eq_false_iff_not]
  omega

theorem intDec_ascii (n : Int) : ∀ c ∈ intDec n, c.toNat < 128 := by
  have hd : ∀ c, isDigit c = true → c.toNat < 128 := by
    intro c hc
    simp only [isDigit, Bool.and_eq_true, decide_eq_true_eq] at hc
    have := hc.2
    have h9 : c.toNat ≤ '9'.toNat := this
    have : '9'.toNat = 57 := by decide
    omega
  intro c hc
  unfold intDec at hc
  split at hc
  · rcases List.mem_cons.1 hc with rfl | hc
    · decide
    · exact hd c (natDec_digits _ _ hc)
  · exact hd c (natDec_digits _ _ hc)

theorem columnValue_good (toInt32 : JsString → Int) (o : ShapeObj) (ht : ∀ t ∈ o.tags, Storable t.value)
    (calls : List RuleCall) (c : String) : AttrGood (columnValue toInt32 o calls c) := by
  unfold columnValue
  cases keyFor calls c with
  | none =>
    simp only
    by_cases hc : c = "id"
    · rw [if_pos hc]
      exact attrGood_text (fun u hu => ascii_storable (intDec_ascii _) u (List.mem_of_getElem? hu)) _
    · rw [if_neg hc]
      intro text i e; cases e
  | some key =>
    simp only
    cases hv : firstValue o.tags key with
    | none => intro text i e; cases e
    | some v =>
      unfold firstValue at hv
      cases hf : o.tags.find? fun t => decide (t.key = key) with
      | none => rw [hf] at hv; cases hv
      | some t =>
        rw [hf] at hv
        cases hv
        exact attrGood_text (ht t (List.mem_of_find?_eq_some hf)).2 _

theorem checkRules_ok (fits : DbfField → DbfValue → Bool) (hfits : ∀ f v, fits f v = true) (toInt32 : JsString → Int)
    (o : ShapeObj) (ht : ∀ t ∈ o.tags, Storable t.value) (ws : List WrittenRule) (rs : List ShapeRule)
    (hr : List.Forall₂ (fun w r => KeptRule w r ∧ r.built = buildFunc w.key (ruleValue w.value)) ws rs)
    (files : List (String × ShapeDef))
    (hw : ∀ w ∈ ws, (∃ name, outputOf w.calls = some name ∧ (jsOwn files name).isSome) ∧ w.value ≠ .other ∧
      ScriptKey w.key ∧ ∀ column key, keyFor w.calls column = some key → ScriptKey key)
    (ho : ∀ n f, jsOwn files n = some f → ∃ t, f.shp = some (t, true) ∧ TableGood t) :
    ∃ files', checkRules fits toInt32 o files rs = .ok files' ∧
      (∀ n, (jsOwn files' n).isSome = (jsOwn files n).isSome) ∧
      ∀ n f, jsOwn files' n = some f → ∃ t, f.shp = some (t, true) ∧ TableGood t := by
  induction hr generalizing files with
  | nil => exact ⟨files, rfl, fun _ => rfl, ho⟩
  | @cons w r ws rs hwr _ ih =>
    obtain ⟨hk, hb⟩ := hwr
    obtain ⟨⟨name, hname, hsome⟩, hother, hkey, hkeys⟩ := hw w List.mem_cons_self
    obtain ⟨m, hm1, hm2⟩ := ruleMatches_applies hkey hother
    have ht' : ∀ t ∈ o.tags, OsmText t.value := fun t h => (ht t h).1
    have hw' := fun w' hw'' => hw w' (List.mem_cons_of_mem _ hw'')
    rw [checkRules, hb, hm1]
    simp only [hm2 o.tags ht']
    by_cases ha : Applies w o.tags
    · simp only [ha, decide_true]
      obtain ⟨obj, hobj, hlook⟩ := tags2attributes_lookup toInt32 o ht' w.calls r.attrs hk.attrs hk.nodup hkeys
      rw [hobj, hk.file, hname]
      simp only
      cases hf : jsOwn files name with
      | none => rw [hf] at hsome; cases hsome
      | some f =>
        obtain ⟨t0, ht0, hgood⟩ := ho name f hf
        simp only [ht0]
        have hattrs : (fun k => (jsOwn obj k).getD .missing) = columnValue toInt32 o w.calls := by
          funext k; exact hlook k
        rw [hattrs]
        obtain ⟨t1, h1, h2⟩ := shpCall_add_ok hfits hgood o.geom _ (columnValue_good toInt32 o ht w.calls)
        rw [h1]
        simp only
        have hisSome : ∀ n, (jsOwn (jsPut files name { f with shp := some (t1, true) }) n).isSome = (jsOwn files n).isSome := by
          intro n
          rw [jsOwn_jsPut]
          by_cases hn : name = n
          · subst hn; simp [hf]
          · simp [hn]
        obtain ⟨files', i1, i2, i3⟩ := ih (jsPut files name { f with shp := some (t1, true) })
          (fun w' hw'' => by
            obtain ⟨⟨n, h1, h2⟩, h3⟩ := hw' w' hw''
            exact ⟨⟨n, h1, by rw [hisSome]; exact h2⟩, h3⟩)
          (by
            intro n g hg
            rw [jsOwn_jsPut] at hg
            by_cases hn : name = n
            · rw [if_pos hn] at hg
              cases hg
              exact ⟨t1, rfl, h2⟩
            · rw [if_neg hn] at hg
              exact ho n g hg)
        exact ⟨files', i1, fun n => by rw [i2, hisSome], i3⟩
    · simp only [ha, decide_false]
      exact ih files hw' ho

theorem openShape_ok {fits : DbfField → DbfValue → Bool} {f : ShapeDef} {calls : List FileCall}
    (hc : ∀ c ∈ calls, KnownTypes c) (hg : GoodColumns calls) (h1 : f.gtype = geometryType calls)
    (h2 : f.columns = columnsOf calls) :
    ∃ g t, openShape fits f = .ok g ∧ g.shp = some (t, true) ∧ TableGood t := by
  have htype : ∃ ty, scriptOpenShp f.gtype = .ok (ShpTable.new ty) := by
    rw [h1]
    have : geometryType calls = "point" ∨ geometryType calls = "line" ∨ geometryType calls = "polygon" := by
      unfold geometryType
      cases hl : (calls.filterMap fun c => match c with
          | .type t => some t
          | _ => none).getLast? with
      | none => exact Or.inl rfl
      | some t =>
        have := List.mem_of_getLast? hl
        rw [List.mem_filterMap] at this
        obtain ⟨c, hm, e⟩ := this
        cases c with
        | type t' => cases e; exact hc _ hm
        | column n t s => cases e
        | filename n => cases e
    rcases this with h | h | h <;> rw [h]
    · exact ⟨_, rfl⟩
    · exact ⟨_, rfl⟩
    · exact ⟨_, rfl⟩
  have hcols : ∀ c ∈ columnsOf calls, c.type = "integer" ∨ c.type = "string" ∨ c.type = "bool" := by
    intro c hm
    have hnd := (hg.2.2 c hm).2.2.1
    unfold columnsOf at hm
    rw [List.mem_filterMap] at hm
    obtain ⟨d, hd, e⟩ := hm
    cases d with
    | type t => cases e
    | column n t s =>
      cases e
      have := hc _ hd
      simp only [KnownTypes] at this
      rcases this with h | h | h | h
      · exact Or.inl h
      · exact Or.inr (Or.inl h)
      · exact Or.inr (Or.inr h)
      · exact absurd h hnd
    | filename n => cases e
  obtain ⟨ty, hty⟩ := htype
  have gen : ∀ (cols : List ShapeColumn) (t : ShpTable), t.base.fields.length + cols.length ≤ 2047 →
      (∀ c ∈ cols, c.name ≠ "" ∧ c.name.utf8ByteSize ≤ 11 ∧ 0 ≤ c.size ∧ c.size ≤ 255 ∧
        (c.type = "integer" ∨ c.type = "string" ∨ c.type = "bool")) →
      t.rows.length = t.base.cur.shapes.length → (∀ f ∈ t.base.fields, f.type ≠ .double ∧ 0 ≤ f.width) →
      ∃ t', callChain (fun h c => shpCall fits h (.addField (columnArgs c))) (t, true) cols = .ok (t', true) ∧
        t'.base.fields.length = t.base.fields.length + cols.length ∧
        t'.rows.length = t'.base.cur.shapes.length ∧ ∀ f ∈ t'.base.fields, f.type ≠ .double ∧ 0 ≤ f.width := by
    intro cols
    induction cols with
    | nil => intro t _ _ h3 h4; exact ⟨t, rfl, rfl, h3, h4⟩
    | cons c cols ih =>
      intro t hlen hcs h3 h4
      obtain ⟨c1, c2, c3, c4, c5⟩ := hcs c List.mem_cons_self
      have hnew : ∀ (ty : DbfType) (w d : Int), w ≤ 255 → DbfField.new c.name ty w d = .ok ⟨c.name, ty, w, d⟩ := by
        intro ty w d hw
        unfold DbfField.new
        rw [if_neg (by push Not; exact ⟨c1, c2⟩), if_neg (by omega)]
      have hfield : ∃ fd, DbfField.ofText c.name c.type c.size 0 = .ok fd ∧ fd.type ≠ .double ∧ 0 ≤ fd.width := by
        rcases c5 with h | h | h
        · rw [h]
          exact ⟨_, by simp only [DbfField.ofText]; exact hnew .integer c.size 0 c4, by simp, c3⟩
        · rw [h]
          exact ⟨_, by simp only [DbfField.ofText]; exact hnew .string c.size 0 c4, by simp, c3⟩
        · rw [h]
          exact ⟨_, by simp only [DbfField.ofText]; exact hnew .logical 1 0 (by omega), by simp, by show (0 : Int) ≤ 1; decide⟩
      obtain ⟨fd, f1, f2, f3⟩ := hfield
      have hlt : t.base.fields.length < 2047 := by simp only [List.length_cons] at hlen; omega
      have hstep : ∃ t1, shpCall fits (t, true) (.addField (columnArgs c)) = .ok (t1, true) ∧
          t1.base.fields = t.base.fields ++ [fd] ∧ t1.rows = t.rows ∧ t1.base.cur.shapes = t.base.cur.shapes := by
        simp only [shpCall, shpRun, if_true, columnArgs, scriptAddField, ShpTable.step, bind, Except.bind, f1,
          ShapefileObj.addField, if_pos hlt]
        exact ⟨_, rfl, rfl, rfl, rfl⟩
      obtain ⟨t1, s1, s2, s3, s4⟩ := hstep
      obtain ⟨t', r1, r2, r3, r4⟩ := ih t1 (by rw [s2]; simp only [List.length_cons, List.length_append, List.length_nil] at hlen ⊢; omega)
        (fun d hd => hcs d (List.mem_cons_of_mem _ hd)) (by rw [s3, s4]; exact h3) (by
          rw [s2]
          intro g hg
          rcases List.mem_append.1 hg with hg | hg
          · exact h4 g hg
          · rw [List.mem_singleton.1 hg]; exact ⟨f2, f3⟩)
      refine ⟨t', ?_, ?_, r3, r4⟩
      · simp only [callChain, s1]; exact r1
      · rw [r2, s2]; simp only [List.length_cons, List.length_append, List.length_nil]; omega
  obtain ⟨t', r1, r2, r3, r4⟩ := gen (columnsOf calls) (ShpTable.new ty) (by
      have := hg.2.1
      simp only [ShpTable.new, ShapefileObj.new, ShapefileObj.open_, List.length_nil]; omega)
    (fun c hm => by
      obtain ⟨g1, g2, -, g4, g5⟩ := hg.2.2 c hm
      exact ⟨g1, g2, g4, g5, hcols c hm⟩) rfl (by simp [ShpTable.new, ShapefileObj.new, ShapefileObj.open_])
  refine ⟨{ f with shp := some (t', true) }, t', ?_, rfl, ?_, r3, r4⟩
  · unfold openShape
    rw [hty]
    simp only [h2, r1]
  · intro e
    have := hg.1
    rw [e] at r2
    simp only [ShpTable.new, ShapefileObj.new, ShapefileObj.open_, List.length_nil, Nat.zero_add] at r2
    exact this (List.length_eq_zero_iff.1 r2.symm)

/-- **C110** (the program comes to its end): if the configuration is valid, the shapefiles take all values, and
all texts can be stored, there is no exception.  (`fits`: no value is refused by the library for shapefiles.) -/
theorem osm2shape_succeeds (fits : DbfField → DbfValue → Bool) (hfits : ∀ f v, fits f v = true)
    (toInt32 : JsString → Int) (cfg : List ConfigStmt) (os : List ShapeObj) (hv : ValidConfig cfg) (hg : GoodRules cfg)
    (hc : ∀ name calls, ConfigStmt.shapefile name calls ∈ cfg → GoodColumns calls)
    (ht : ∀ o ∈ os, ∀ t ∈ o.tags, Storable t.value) : ∃ s, osm2shape fits toInt32 cfg os = .ok s := by
  obtain ⟨s0, hl⟩ := (config_accepted_iff cfg).2 hv
  obtain ⟨m1, m2, m3⟩ := loadConfig_meaning hl
  have hdef : ∀ name calls, shapefileDef cfg name = some calls → ConfigStmt.shapefile name calls ∈ cfg := by
    intro name calls h
    have := List.mem_of_getLast? h
    rw [List.mem_filterMap] at this
    obtain ⟨st, hm, e⟩ := this
    cases st with
    | rule k key v cs => cases e
    | shapefile n cs =>
      simp only at e
      by_cases hn : n = name
      · rw [if_pos hn] at e; cases e; rw [← hn]; exact hm
      · rw [if_neg hn] at e; cases e
  have hknown : ∀ name calls, ConfigStmt.shapefile name calls ∈ cfg → ∀ c ∈ calls, KnownTypes c := by
    intro name calls hm
    obtain ⟨a, b, e⟩ := List.append_of_mem hm
    exact hv a _ b e
  -- every file of the state comes from the configuration
  have hfrom : ∀ p ∈ s0.files, ∃ name calls, ConfigStmt.shapefile name calls ∈ cfg ∧
      p.2.gtype = geometryType calls ∧ p.2.columns = columnsOf calls := by
    clear m1 m2 m3 hdef hknown hg hc hv
    unfold loadConfig at hl
    induction cfg using List.reverseRecOn generalizing s0 with
    | nil => cases hl; simp [ShapeState.new]
    | append_singleton cfg st ih =>
      rw [callChain_append] at hl
      cases hx : callChain configStmt ShapeState.new cfg with
      | error e => rw [hx] at hl; cases hl
      | ok s1 =>
        rw [hx] at hl
        have ih := ih s1 hx
        simp only [callChain] at hl
        have put : ∀ (l : List (String × ShapeDef)) (k : String) (v : ShapeDef) p, p ∈ jsPut l k v → p = (k, v) ∨ p ∈ l := by
          intro l k v
          induction l with
          | nil => intro p hp; simp [jsPut] at hp; exact Or.inl hp
          | cons q l ih =>
            intro p hp
            unfold jsPut at hp
            by_cases hq : q.1 = k
            · rw [if_pos hq] at hp
              rcases List.mem_cons.1 hp with hp | hp
              · exact Or.inl hp
              · exact Or.inr (List.mem_cons_of_mem _ hp)
            · rw [if_neg hq] at hp
              rcases List.mem_cons.1 hp with hp | hp
              · exact Or.inr (by rw [hp]; exact List.mem_cons_self)
              · rcases ih p hp with h | h
                · exact Or.inl h
                · exact Or.inr (List.mem_cons_of_mem _ h)
        have old : ∀ p ∈ s1.files, ∃ name calls, ConfigStmt.shapefile name calls ∈ cfg ++ [st] ∧
            p.2.gtype = geometryType calls ∧ p.2.columns = columnsOf calls := by
          intro p hp
          obtain ⟨n, c, h1, h2⟩ := ih p hp
          exact ⟨n, c, List.mem_append_left _ h1, h2⟩
        cases st with
        | shapefile n calls =>
          simp only [configStmt] at hl
          cases hf : callChain fileCall ⟨n, "point", [], none⟩ calls with
          | error e => rw [hf] at hl; cases hl
          | ok f =>
            rw [hf] at hl
            cases hl
            intro p hp
            rcases put _ _ _ p hp with rfl | hp
            · obtain ⟨h1, h2, -⟩ := fileCalls_def hf
              exact ⟨n, calls, by simp, h1, h2⟩
            · exact old p hp
        | rule kind key value calls =>
          simp only [configStmt] at hl
          cases hf : callChain (ruleCall s1.files) ⟨key, ruleValue value, none, [], none⟩ calls with
          | error e => rw [hf] at hl; cases hl
          | ok r =>
            rw [hf] at hl
            cases hl
            rw [files_setRules]
            exact old
  have hinit : ∃ files, initFiles fits s0.files = .ok files ∧
      ∀ n f, jsOwn files n = some f → ∃ t, f.shp = some (t, true) ∧ TableGood t := by
    have gen : ∀ l : List (String × ShapeDef), (∀ p ∈ l, p ∈ s0.files) → ∃ files, initFiles fits l = .ok files ∧
        ∀ n f, jsOwn files n = some f → ∃ t, f.shp = some (t, true) ∧ TableGood t := by
      intro l
      induction l with
      | nil => intro _; exact ⟨[], rfl, fun n f h => by cases h⟩
      | cons p l ih =>
        intro hp
        obtain ⟨files, i1, i2⟩ := ih fun q hq => hp q (List.mem_cons_of_mem _ hq)
        obtain ⟨n, calls, h1, h2, h3⟩ := hfrom p (hp p List.mem_cons_self)
        obtain ⟨g, t, o1, o2, o3⟩ := openShape_ok (fits := fits) (hknown n calls h1) (hc n calls h1) h2 h3
        refine ⟨(p.1, g) :: files, ?_, ?_⟩
        · simp only [initFiles, o1, i1]
        · intro n f hf
          simp only [jsOwn] at hf
          by_cases hn : p.1 = n
          · rw [if_pos hn] at hf; cases hf; exact ⟨t, o2, o3⟩
          · rw [if_neg hn] at hf; exact i2 n f hf
    exact gen _ fun _ h => h
  obtain ⟨files, hi, hgood⟩ := hinit
  have hft := initFiles_tables hi
  have hsome : ∀ n, (jsOwn files n).isSome = (shapefileDef cfg n).isSome := by
    intro n
    rw [← m1 n]
    have := hft n
    cases hj : jsOwn s0.files n with
    | none => rw [hj] at this; simp only at this; rw [this]
    | some f => rw [hj] at this; obtain ⟨g, -, hg⟩ := this; rw [hg]; rfl
  have hrules : ∀ k, ∀ w ∈ rulesFor cfg k, ∃ name, outputOf w.calls = some name ∧ name ≠ "" ∧ (jsOwn files name).isSome := by
    intro k w hw
    obtain ⟨⟨n, h1, h2, h3⟩, -⟩ := hg k w hw
    exact ⟨n, h1, h2, by rw [hsome]; exact h3⟩
  obtain ⟨n1, n2⟩ := initRules_built (m3 .node) (hrules .node)
  obtain ⟨w1, w2⟩ := initRules_built (m3 .way) (hrules .way)
  obtain ⟨a1, a2⟩ := initRules_built (m3 .area) (hrules .area)
  simp only [ShapeState.rules] at n1 n2 w1 w2 a1 a2
  have gen : ∀ (os : List ShapeObj) (st : ShapeState), (∀ o ∈ os, ∀ t ∈ o.tags, Storable t.value) →
      (∀ n f, jsOwn st.files n = some f → ∃ t, f.shp = some (t, true) ∧ TableGood t) →
      (∀ n, (jsOwn st.files n).isSome = (shapefileDef cfg n).isSome) →
      (∀ k, List.Forall₂ (fun w r => KeptRule w r ∧ r.built = buildFunc w.key (ruleValue w.value))
        (rulesFor cfg k) (st.rules k)) →
      ∃ st', callChain (shapeObject fits toInt32) st os = .ok st' := by
    intro os
    induction os with
    | nil => intro st _ _ _ _; exact ⟨st, rfl⟩
    | cons o os ih =>
      intro st ht ho hs hr
      obtain ⟨files1, c1, c2, c3⟩ := checkRules_ok fits hfits toInt32 o (ht o List.mem_cons_self) _ _ (hr o.kind) st.files
        (fun w hw => by
          obtain ⟨⟨n, h1, h2, h3⟩, h4⟩ := hg o.kind w hw
          exact ⟨⟨n, h1, by rw [hs]; exact h3⟩, h4⟩) ho
      obtain ⟨st', k⟩ := ih { st with files := files1 } (fun o' ho' => ht o' (List.mem_cons_of_mem _ ho'))
        c3 (fun n => by rw [← hs]; exact c2 n) (fun k => by have := hr k; cases k <;> exact this)
      exact ⟨st', by simp only [callChain, shapeObject, c1]; exact k⟩
  obtain ⟨s1, hs1⟩ := gen os ⟨files, (initRules files s0.node).1, (initRules files s0.way).1,
      (initRules files s0.area).1⟩ ht hgood hsome (fun k => by cases k <;> assumption)
  refine ⟨shapeEnd s1, ?_⟩
  unfold osm2shape
  rw [hl]
  simp only [shapeRun, shapeInit, hi]
  rw [if_pos n1, if_pos w1]
  simp only [hs1]

/-! ### The example -/

/-- A decidable version of `GoodRules`. (helper for the examples) (no counterpart in /repo) -/
def goodRulesB (cfg : List ConfigStmt) : Bool :=
  let keyOk := fun (k : String) => !k.toList.contains '\x00' && k.toList.length ≤ 255 && !isArrayIndex (utf16 k.toList)
  cfg.all fun st => match st with
    | .shapefile .. => true
    | .rule _ key value calls =>
      (match outputOf calls with
        | some n => n ≠ "" && (shapefileDef cfg n).isSome
        | none => false) && value ≠ .other && keyOk key &&
      calls.all fun c => match c with
        | .output _ => true
        | .attr a k => keyOk (k.getD a)

theorem goodRules_of_check {cfg : List ConfigStmt} (h : goodRulesB cfg = true) : GoodRules cfg := by
  have keyOk : ∀ k : String, (!k.toList.contains '\x00' && k.toList.length ≤ 255 && !isArrayIndex (utf16 k.toList)) = true →
      ScriptKey k := by
    intro k hk
    simp only [Bool.and_eq_true, Bool.not_eq_true', decide_eq_true_eq] at hk
    obtain ⟨⟨h1, h2⟩, h3⟩ := hk
    refine ⟨⟨by simpa using h1, h2⟩, fun hi => ?_⟩
    rw [(isArrayIndex_iff _).2 hi] at h3
    cases h3
  intro kind r hr
  unfold rulesFor at hr
  rw [List.mem_filterMap] at hr
  obtain ⟨st, hm, e⟩ := hr
  cases st with
  | shapefile n c => cases e
  | rule k key value calls =>
    simp only at e
    by_cases hk : k = kind
    · rw [if_pos hk] at e
      cases e
      unfold goodRulesB at h
      have := List.all_eq_true.1 h _ hm
      simp only [Bool.and_eq_true] at this
      obtain ⟨⟨⟨h1, h2⟩, h3⟩, h4⟩ := this
      refine ⟨?_, by simpa using h2, keyOk key (by simp only [Bool.and_eq_true]; exact h3), ?_⟩
      · cases ho : outputOf calls with
        | none => rw [ho] at h1; cases h1
        | some n =>
          rw [ho] at h1
          simp only [Bool.and_eq_true, decide_eq_true_eq] at h1
          exact ⟨n, rfl, h1.1, h1.2⟩
      · intro column key' hk'
        have := List.mem_of_getLast? hk'
        rw [List.mem_filterMap] at this
        obtain ⟨c, hc, e⟩ := this
        cases c with
        | output n => cases e
        | attr a ko =>
          simp only at e
          by_cases ha : a = column
          · rw [if_pos ha] at e
            cases e
            have := List.all_eq_true.1 h4 _ hc
            rw [← ha]
            exact keyOk _ this
          · rw [if_neg ha] at e; cases e
    · rw [if_neg hk] at e; cases e

/-- Some objects. (data for the examples) (no counterpart in /repo) -/
def shapeObjs : List ShapeObj :=
  [⟨.node, 17, [⟨"natural", "peak"⟩, ⟨"name", "Brocken"⟩], some ⟨.point, 0, 1, 1⟩⟩,
   ⟨.node, 18, [⟨"natural", "cave"⟩, ⟨"name", "Hölle"⟩], some ⟨.point, 0, 1, 2⟩⟩,
   ⟨.way, 33, [⟨"highway", "primary"⟩, ⟨"oneway", "yes"⟩, ⟨"ref", "B 3"⟩], some ⟨.arc, 1, 2, 3⟩⟩,
   ⟨.way, 34, [⟨"highway", "cycleway"⟩, ⟨"railway", "rail"⟩], some ⟨.arc, 1, 2, 4⟩⟩,
   ⟨.way, 35, [⟨"highway", "primary"⟩], none⟩,
   ⟨.area, 66, [⟨"natural", "water"⟩], some ⟨.polygon, 1, 4, 5⟩⟩]

/-- The example of a configuration with these objects meets all hypotheses. -/
example : GoodRules exampleConfig ∧ (∀ o ∈ shapeObjs, ∀ t ∈ o.tags, Storable t.value) ∧
    (∀ name calls, ConfigStmt.shapefile name calls ∈ exampleConfig → GoodColumns calls) ∧
    shapefileDef exampleConfig "roads" ≠ none := by
  refine ⟨goodRules_of_check (by decide +kernel), ?_, ?_, by decide +kernel⟩
  · have : ∀ o ∈ shapeObjs, ∀ t ∈ o.tags, (!t.value.toList.contains '\x00' && t.value.toList.length ≤ 255 &&
        ((utf16 t.value.toList)[255]? = none)) = true := by decide +kernel
    intro o ho t ht
    have := this o ho t ht
    simp only [Bool.and_eq_true, decide_eq_true_eq] at this
    refine ⟨⟨by simpa using this.1.1, this.1.2⟩, fun u hu => ?_⟩
    rw [this.2] at hu; cases hu
  · have : ∀ st ∈ exampleConfig, (match st with
        | .shapefile _ calls => columnsOf calls ≠ [] && (columnsOf calls).length ≤ 2047 &&
            (columnsOf calls).all fun c => c.name ≠ "" && c.name.utf8ByteSize ≤ 11 && c.type ≠ "double" && 0 ≤ c.size && c.size ≤ 255
        | .rule .. => true) = true := by decide +kernel
    intro name calls hm
    have := this _ hm
    simp only [Bool.and_eq_true, decide_eq_true_eq, List.all_eq_true] at this
    refine ⟨this.1.1, this.1.2, fun c hc => ?_⟩
    have := this.2 c hc
    exact ⟨this.1.1.1.1, this.1.1.1.2, this.1.1.2, this.1.2, this.2⟩

/-- The contents of one of the files. (helper for the examples) (no counterpart in /repo) -/
def demoContents (os : List ShapeObj) (name : String) : Option (List (ShpShape × DbfRow)) :=
  (osm2shape (fun _ _ => true) (fun _ => 0) exampleConfig os).toOption.bind fun s =>
    (tableOf s.files name).map fun t => contents t.1

/-- What is in some of the files. -/
example : demoContents shapeObjs "natural_pois" = some [(⟨.point, 0, 1, 1⟩, [(0, .string (utf8 "17".toList)),
        (1, .string (utf8 "peak".toList)), (2, .string (utf8 "Brocken".toList))])] ∧
    demoContents shapeObjs "roads" = some [(⟨.arc, 1, 2, 3⟩, [(0, .int 33), (1, .string (utf8 "primary".toList)),
        (2, .null), (3, .string (utf8 "B 3".toList)), (4, .bool true), (5, .null)])] ∧
    demoContents shapeObjs "railways" = some [(⟨.arc, 1, 2, 4⟩, [(0, .int 34), (1, .null)])] ∧
    demoContents shapeObjs "glaciers" = some [] := by
  refine ⟨?_, ?_, ?_, ?_⟩ <;> decide +kernel

/-! ### Disagreements -/

theorem loadConfig_unbuilt {cfg : List ConfigStmt} {s : ShapeState} (h : loadConfig cfg = .ok s) :
    ∀ k, ∀ r ∈ s.rules k, r.built = none := by
  unfold loadConfig at h
  induction cfg using List.reverseRecOn generalizing s with
  | nil => cases h; intro k; cases k <;> simp [ShapeState.new, ShapeState.rules]
  | append_singleton cfg st ih =>
    rw [callChain_append] at h
    cases hc : callChain configStmt ShapeState.new cfg with
    | error e => rw [hc] at h; cases h
    | ok s0 =>
      rw [hc] at h
      have ih := ih hc
      simp only [callChain] at h
      cases st with
      | shapefile n calls =>
        simp only [configStmt] at h
        cases hf : callChain fileCall ⟨n, "point", [], none⟩ calls with
        | error e => rw [hf] at h; cases h
        | ok f => rw [hf] at h; cases h; intro k; have := ih k; cases k <;> exact this
      | rule kind key value calls =>
        simp only [configStmt] at h
        cases hf : callChain (ruleCall s0.files) ⟨key, ruleValue value, none, [], none⟩ calls with
        | error e => rw [hf] at h; cases h
        | ok r =>
          rw [hf] at h
          cases h
          obtain ⟨-, -, r3, -⟩ := ruleCalls_rule hf
          intro k
          rw [rules_setRules]
          by_cases hk : kind = k
          · rw [if_pos hk]
            intro x hx
            rcases List.mem_append.1 hx with hx | hx
            · exact ih kind x hx
            · rw [List.mem_singleton.1 hx]; exact r3
          · rw [if_neg hk]; exact ih k

theorem initRules_head {files : List (String × ShapeDef)} {r : ShapeRule} {rs : List ShapeRule} (h : r.built = none) :
    ∃ r' rs', (initRules files (r :: rs)).1 = r' :: rs' ∧ r'.file = r.file ∧ r'.attrs = r.attrs ∧
      (r'.built = none ∨ r'.built = buildFunc r.key r.value) := by
  unfold initRules
  cases hf : r.file with
  | none => exact ⟨r, rs, rfl, hf, rfl, Or.inl h⟩
  | some f =>
    simp only
    by_cases hb : (f ≠ "" && jsHas files f) = true
    · rw [if_pos hb]
      exact ⟨_, _, rfl, rfl, rfl, Or.inr rfl⟩
    · rw [if_neg hb]
      exact ⟨r, rs, rfl, hf, rfl, Or.inl h⟩

/-- The first rule for some type of objects after `init`. -/
theorem first_rule {fits : DbfField → DbfValue → Bool} {cfg : List ConfigStmt} {s0 s1 : ShapeState}
    (hl : loadConfig cfg = .ok s0) (hi : shapeInit fits s0 = .ok s1) {kind : RuleKind} {w : WrittenRule}
    {rest : List WrittenRule} (h : rulesFor cfg kind = w :: rest) :
    (∀ n, (jsOwn s1.files n).isSome = (shapefileDef cfg n).isSome) ∧
    ∃ r rs, s1.rules kind = r :: rs ∧ r.file = outputOf w.calls ∧ (∀ c, jsOwn r.attrs c = keyFor w.calls c) ∧
      (r.attrs.map (·.1)).Nodup ∧ (r.built = none ∨ r.built = buildFunc w.key (ruleValue w.value)) := by
  obtain ⟨m1, -, m3⟩ := loadConfig_meaning hl
  have hun := loadConfig_unbuilt hl kind
  have hk := m3 kind
  rw [h] at hk
  cases hr : s0.rules kind with
  | nil => rw [hr] at hk; cases hk
  | cons r rs =>
    rw [hr] at hk hun
    have hkept : KeptRule w r := by cases hk with | cons a _ => exact a
    have hrb := hun r List.mem_cons_self
    simp only [shapeInit] at hi
    cases hf : initFiles fits s0.files with
    | error e => rw [hf] at hi; cases hi
    | ok files =>
      rw [hf] at hi
      cases hi
      refine ⟨fun n => ?_, ?_⟩
      · rw [← m1 n]
        have := initFiles_tables hf n
        cases hj : jsOwn s0.files n with
        | none => rw [hj] at this; simp only at this; rw [this]
        | some f => rw [hj] at this; obtain ⟨g, -, hg⟩ := this; rw [hg]; rfl
      · have hin := initRules_head (files := files) (rs := rs) hrb
        have hskip : ∃ r' rs', r :: rs = r' :: rs' ∧ r'.file = r.file ∧ r'.attrs = r.attrs ∧
            (r'.built = none ∨ r'.built = buildFunc r.key r.value) := ⟨r, rs, rfl, rfl, rfl, Or.inl hrb⟩
        have key : ∃ r' rs', (ShapeState.rules ⟨files, (initRules files s0.node).1,
            (if (initRules files s0.node).2 = true then initRules files s0.way else (s0.way, false)).1,
            (if (if (initRules files s0.node).2 = true then initRules files s0.way else (s0.way, false)).2 = true then
              initRules files s0.area else (s0.area, false)).1⟩ kind) = r' :: rs' ∧ r'.file = r.file ∧
            r'.attrs = r.attrs ∧ (r'.built = none ∨ r'.built = buildFunc r.key r.value) := by
          cases kind with
          | node =>
            simp only [ShapeState.rules] at hr ⊢
            rw [hr]; exact hin
          | way =>
            simp only [ShapeState.rules] at hr ⊢
            rw [hr]
            by_cases hb : (initRules files s0.node).2 = true
            · rw [if_pos hb]; exact hin
            · rw [if_neg hb]; exact hskip
          | area =>
            simp only [ShapeState.rules] at hr ⊢
            rw [hr]
            by_cases hb : (if (initRules files s0.node).2 = true then initRules files s0.way else (s0.way, false)).2 = true
            · rw [if_pos hb]; exact hin
            · rw [if_neg hb]; exact hskip
        obtain ⟨r', rs', k1, k2, k3, k4⟩ := key
        refine ⟨r', rs', k1, by rw [k2, hkept.file], by rw [k3]; exact hkept.attrs, by rw [k3]; exact hkept.nodup, ?_⟩
        rw [← hkept.key, ← hkept.value]
        exact k4

theorem unchanged_run {fits : DbfField → DbfValue → Bool} {toInt32 : JsString → Int} {s : ShapeState} (os : List ShapeObj)
    (h : ∀ o ∈ os, shapeObject fits toInt32 s o = .ok s) : callChain (shapeObject fits toInt32) s os = .ok s := by
  induction os with
  | nil => rfl
  | cons o os ih =>
    simp only [callChain, h o List.mem_cons_self]
    exact ih fun x hx => h x (List.mem_cons_of_mem _ hx)

/-- **C110, disagreement.**  If the value in the first rule for some type of objects is a number (or anything but a
text, an array or null), no object of this type is written to any file, whatever the other rules are; and
there is no error. -/
theorem osm2shape_number_value (fits : DbfField → DbfValue → Bool) (toInt32 : JsString → Int) (cfg : List ConfigStmt)
    (kind : RuleKind) (w : WrittenRule) (rest : List WrittenRule) (h : rulesFor cfg kind = w :: rest)
    (hw : w.value = .other) (os : List ShapeObj) (ho : ∀ o ∈ os, o.kind = kind) :
    osm2shape fits toInt32 cfg os = osm2shape fits toInt32 cfg [] := by
  unfold osm2shape
  cases hl : loadConfig cfg with
  | error e => rfl
  | ok s0 =>
    simp only [shapeRun]
    cases hi : shapeInit fits s0 with
    | error e => rfl
    | ok s1 =>
      obtain ⟨-, r, rs, h1, -, -, -, h5⟩ := first_rule hl hi h
      have hb : r.built = none := by
        rcases h5 with h5 | h5
        · exact h5
        · rw [h5, hw]; rfl
      simp only
      rw [unchanged_run os fun o hm => by
        unfold shapeObject
        rw [ho o hm, h1, checkRules, hb]]
      rfl

/-- A rule for the number of lanes, before the rules of the example. -/
example : rulesFor (exampleFiles ++ .rule .way "lanes" .other [.output "roads"] :: exampleRules) .way =
    ⟨"lanes", .other, [.output "roads"]⟩ :: rulesFor exampleRules .way := by
  rfl

/-- **C110, disagreement.**  A rule with a key that is a number never applies. -/
theorem osm2shape_index_key (tags : TagList) (key : String) (hk : IndexName key.toList) (value : RuleValue)
    (m : RuleMatch) (h : buildFunc key value = some m) : ruleMatches tags m = .ok false := by
  have ht : jsTag tags (jsLit key.toList) = .ok .undefined := by
    unfold jsTag
    rw [jsLit_eq, if_pos ((isArrayIndex_iff _).2 hk)]
  cases value with
  | null => cases h; simp only [ruleMatches, ht]; rfl
  | other => cases h
  | list l => cases h; simp only [ruleMatches, ht]; rfl
  | text s =>
    simp only [buildFunc] at h
    split at h
    · cases h; simp only [ruleMatches, ht]; rfl
    · split at h
      · cases h; simp only [ruleMatches, ht]; rfl
      · cases h; simp only [ruleMatches, ht]; rfl

/-- Tags with such keys exist. -/
example : IndexName "5".toList ∧ buildFunc "5" .null = some (.any "5") := ⟨⟨5, by decide, by decide⟩, rfl⟩

/-- **C110, disagreement.**  The name of a function every object of a script has, such as `toString`, is accepted as
name of a shapefile.  The objects the rule applies to are lost, also for the rules after it; and there is no
error. -/
theorem osm2shape_inherited_name (fits : DbfField → DbfValue → Bool) (toInt32 : JsString → Int)
    (cfg : List ConfigStmt) (kind : RuleKind) (w : WrittenRule) (rest : List WrittenRule)
    (h : rulesFor cfg kind = w :: rest) (name : String) (hn : outputOf w.calls = some name)
    (hd : shapefileDef cfg name = none) (hk : ScriptKey w.key)
    (hks : ∀ column key, keyFor w.calls column = some key → ScriptKey key) (hv : w.value ≠ .other)
    (os : List ShapeObj) (ho : ∀ o ∈ os, o.kind = kind ∧ Applies w o.tags ∧ ∀ t ∈ o.tags, OsmText t.value) :
    osm2shape fits toInt32 cfg os = osm2shape fits toInt32 cfg [] := by
  unfold osm2shape
  cases hl : loadConfig cfg with
  | error e => rfl
  | ok s0 =>
    simp only [shapeRun]
    cases hi : shapeInit fits s0 with
    | error e => rfl
    | ok s1 =>
      obtain ⟨h0, r, rs, h1, h2, h3, h4, h5⟩ := first_rule hl hi h
      obtain ⟨m, hm1, hm2⟩ := ruleMatches_applies hk hv
      have hnone : jsOwn s1.files name = none := by
        have := h0 name
        rw [hd] at this
        cases hj : jsOwn s1.files name with
        | none => rfl
        | some f => rw [hj] at this; cases this
      simp only
      rw [unchanged_run os fun o hm => by
        obtain ⟨o1, o2, o3⟩ := ho o hm
        unfold shapeObject
        rw [o1, h1, checkRules]
        rcases h5 with h5 | h5
        · rw [h5]
        · obtain ⟨obj, hobj, -⟩ := tags2attributes_lookup toInt32 o o3 w.calls r.attrs h3 h4 hks
          rw [h5, hm1]
          simp only [hm2 o.tags o3, o2, decide_true, hobj, h2, hn, hnone]]
      rfl

/-- Such a configuration is accepted. -/
example : let cfg : List ConfigStmt := exampleFiles ++ .rule .node "natural" .null [.output "toString"] :: exampleRules
    ValidConfig cfg ∧ shapefileDef cfg "toString" = none ∧
    rulesFor cfg .node = ⟨"natural", .null, [.output "toString"]⟩ :: rulesFor exampleRules .node ∧
    Applies ⟨"natural", .null, [.output "toString"]⟩ [⟨"natural", "peak"⟩] ∧ ScriptKey "natural" := by
  intro cfg
  refine ⟨?_, by decide +kernel, rfl, ⟨"peak", by decide +kernel, by decide, trivial⟩, ⟨by decide, by decide⟩, ?_⟩
  · have ok : (loadConfig cfg).toOption.isSome = true := by decide +kernel
    rw [← config_accepted_iff]
    cases hl : loadConfig cfg with
    | error e => rw [hl] at ok; cases ok
    | ok s => exact ⟨s, rfl⟩
  · rw [← isArrayIndex_iff]; decide +kernel

/-- **C110, disagreement.**  In a column of type integer, ids from 2^31 on are stored as negative numbers.  Areas made
from ways have twice the id of the way, so this happens for ways from 2^30 on. -/
theorem osm2shape_id_wraps (toInt32 : JsString → Int) (o : ShapeObj) (calls : List RuleCall) (f : DbfField)
    (v : DbfValue) (hf : f.type = .integer) (hn : f.name = "id") (hk : keyFor calls "id" = none)
    (h : CellOf f (columnValue toInt32 o calls f.name) v) (h1 : 2147483648 ≤ o.id) (h2 : o.id < 4294967296) :
    v = .int (o.id - 4294967296) := by
  rw [hn] at h
  unfold columnValue at h
  rw [hk] at h
  simp only [if_true, CellOf, hf] at h
  rw [h]
  congr 1
  unfold wrapS32
  omega

example : demoContents [⟨.area, 2147483648, [⟨"natural", "water"⟩], some ⟨.polygon, 1, 4, 5⟩⟩] "water" =
    some [(⟨.polygon, 1, 4, 5⟩, [(0, .int (-2147483648)), (1, .string (utf8 "water".toList)), (2, .null)])] := by
  decide +kernel

end Osmium

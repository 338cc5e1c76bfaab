import Verif.Javascript.Osm2shape
import Verif.Javascript.ExportsProps
import Verif.Javascript.WrapperProps

/-
C110: shapefiles made by osm2shape.js with a configuration.
-/
namespace Osmium
open Spec Text

namespace Spec

/-- The definition of a shapefile: if there are several with the same name, the last one. -/
def shapefileDef (cfg : List ConfigStmt) (name : String) : Option (List FileCall) :=
  (cfg.filterMap fun st => match st with
    | .shapefile n calls => if n = name then some calls else none
    | .rule .. => none).getLast?

/-- Its geometry type: the last one given, otherwise points. -/
def geometryType (calls : List FileCall) : String :=
  (calls.filterMap fun c => match c with
    | .type t => some t
    | _ => none).getLast?.getD "point"

/-- Its columns in order. -/
def columnsOf (calls : List FileCall) : List ShapeColumn :=
  calls.filterMap fun c => match c with
    | .column n t s => some ⟨n, t, s.getD 1⟩
    | _ => none

/-- A rule as it is written in the configuration. -/
structure WrittenRule where
  key : String
  value : RuleValue
  calls : List RuleCall

/-- The rules for nodes, ways or areas, in order. -/
def rulesFor (cfg : List ConfigStmt) (kind : RuleKind) : List WrittenRule :=
  cfg.filterMap fun st => match st with
    | .rule k key value calls => if k = kind then some ⟨key, value, calls⟩ else none
    | .shapefile .. => none

/-- The shapefile a rule writes to. -/
def outputOf (calls : List RuleCall) : Option String :=
  (calls.filterMap fun c => match c with
    | .output n => some n
    | _ => none).getLast?

/-- The key whose value goes into a column: the one given, otherwise the name of the column. -/
def keyFor (calls : List RuleCall) (column : String) : Option String :=
  (calls.filterMap fun c => match c with
    | .attr a key => if a = column then some (key.getD column) else none
    | _ => none).getLast?

/-- The value of the first tag with the key. -/
def firstValue (tags : TagList) (key : String) : Option String := (tags.find? fun t => t.key = key).map (·.value)

/-- `v` is one of the alternatives in `s`, which are separated by bars. -/
def BarPart (s v : String) : Prop :=
  ∃ pre post, s.toList = pre ++ v.toList ++ post ∧ '|' ∉ v.toList ∧
    (pre = [] ∨ ∃ p, pre = p ++ ['|']) ∧ (post = [] ∨ ∃ p, post = '|' :: p)

/-- The values a rule asks for. -/
def Allows : RuleValue → String → Prop
  | .null, _ => True
  | .text s, v => s = "*" ∨ BarPart s v
  | .list l, v => l = ["*"] ∨ v ∈ l
  | .other, _ => False

/-- A rule applies to an object with these tags: it has a tag with the key, with one of the values, and not
an empty one. -/
def Applies (r : WrittenRule) (tags : TagList) : Prop :=
  ∃ v, firstValue tags r.key = some v ∧ v ≠ "" ∧ Allows r.value v

/-- What goes into a column: the tag the rule says, otherwise the id for the column `id`. -/
def columnValue (toInt32 : JsString → Int) (o : ShapeObj) (calls : List RuleCall) (column : String) : ScriptAttr :=
  match keyFor calls column with
  | some key =>
    match firstValue o.tags key with
    | some v => .value (utf16 v.toList) (toInt32 (utf16 v.toList))
    | none => .empty
  | none => if column = "id" then .value (utf16 (intDec o.id)) (wrapS32 o.id) else .missing

open Classical in
/-- What is added to a shapefile: for each object and each rule for this file that applies, in order, the
geometry with the values. -/
noncomputable def additions (toInt32 : JsString → Int) (cfg : List ConfigStmt) (name : String) (os : List ShapeObj) :
    List ShpCall :=
  os.flatMap fun o =>
    ((rulesFor cfg o.kind).filter fun r => outputOf r.calls = some name ∧ Applies r o.tags).map fun r =>
      .add o.geom (columnValue toInt32 o r.calls)

/-- Keys a script can look up. -/
def ScriptKey (key : String) : Prop := OsmText key ∧ ¬ IndexName key.toList

/-- Every rule writes to a shapefile of the configuration (with a name that is not empty), asks for a text or
texts, and all keys can be looked up. -/
def GoodRules (cfg : List ConfigStmt) : Prop :=
  ∀ kind, ∀ r ∈ rulesFor cfg kind,
    (∃ name, outputOf r.calls = some name ∧ name ≠ "" ∧ (shapefileDef cfg name).isSome) ∧ r.value ≠ .other ∧
    ScriptKey r.key ∧ ∀ column key, keyFor r.calls column = some key → ScriptKey key

end Spec

/-! ### Tables -/

theorem jsOwn_jsPut {α : Type} (l : List (String × α)) (k k' : String) (v : α) :
    jsOwn (jsPut l k v) k' = if k = k' then some v else jsOwn l k' := by
  induction l with
  | nil => simp [jsPut, jsOwn]
  | cons p l ih =>
    obtain ⟨a, b⟩ := p
    unfold jsPut
    by_cases h : a = k
    · subst h
      rw [if_pos rfl]
      by_cases h2 : a = k'
      · simp [jsOwn, h2]
      · simp [jsOwn, h2]
    · rw [if_neg h]
      simp only [jsOwn, ih]
      by_cases h2 : a = k'
      · subst h2
        simp [Ne.symm h]
      · simp [h2]

theorem callChain_append {α β : Type} (f : α → β → Res α) (a : α) (l m : List β) :
    callChain f a (l ++ m) = (match callChain f a l with
      | .error e => .error e
      | .ok a => callChain f a m) := by
  induction l generalizing a with
  | nil => rfl
  | cons b l ih =>
    simp only [List.cons_append, callChain]
    cases f a b with
    | error e => rfl
    | ok a' => exact ih a'

theorem jsLit_eq (cs : List Char) : jsLit cs = utf16 cs := rfl

/-! ### What the configuration means -/

theorem fileCalls_def {name : String} {calls : List FileCall} {f : ShapeDef}
    (h : callChain fileCall ⟨name, "point", [], none⟩ calls = .ok f) :
    f.gtype = geometryType calls ∧ f.columns = columnsOf calls ∧ f.shp = none := by
  induction calls using List.reverseRecOn generalizing f with
  | nil => cases h; exact ⟨rfl, rfl, rfl⟩
  | append_singleton calls c ih =>
    rw [callChain_append] at h
    cases hc : callChain fileCall ⟨name, "point", [], none⟩ calls with
    | error e => rw [hc] at h; cases h
    | ok g =>
      rw [hc] at h
      obtain ⟨h1, h2, h3⟩ := ih hc
      simp only [callChain] at h
      cases c with
      | type t =>
        simp only [fileCall] at h
        by_cases hb : t ≠ "point" ∧ t ≠ "line" ∧ t ≠ "polygon"
        · rw [if_pos hb] at h; cases h
        · rw [if_neg hb] at h
          cases h
          exact ⟨by simp [geometryType], by simpa [columnsOf] using h2, h3⟩
      | column n t s =>
        simp only [fileCall] at h
        by_cases hb : t ≠ "integer" ∧ t ≠ "string" ∧ t ≠ "bool" ∧ t ≠ "double"
        · rw [if_pos hb] at h; cases h
        · rw [if_neg hb] at h
          cases h
          refine ⟨by simpa [geometryType] using h1, ?_, h3⟩
          simp only [columnsOf, List.filterMap_append, List.filterMap_cons, List.filterMap_nil]
          rw [h2]; rfl
      | filename n =>
        simp only [fileCall] at h
        cases h
        exact ⟨by simpa [geometryType] using h1, by simpa [columnsOf] using h2, h3⟩

theorem ruleCalls_rule {files : List (String × ShapeDef)} {key : String} {value : RuleValue} {calls : List RuleCall}
    {r : ShapeRule} (h : callChain (ruleCall files) ⟨key, value, none, [], none⟩ calls = .ok r) :
    r.key = key ∧ r.value = value ∧ r.built = none ∧ r.file = outputOf calls ∧
      (∀ c, jsOwn r.attrs c = keyFor calls c) ∧ (r.attrs.map (·.1)).Nodup := by
  induction calls using List.reverseRecOn generalizing r with
  | nil => cases h; exact ⟨rfl, rfl, rfl, rfl, fun _ => rfl, List.nodup_nil⟩
  | append_singleton calls c ih =>
    rw [callChain_append] at h
    cases hc : callChain (ruleCall files) ⟨key, value, none, [], none⟩ calls with
    | error e => rw [hc] at h; cases h
    | ok g =>
      rw [hc] at h
      obtain ⟨h1, h2, h3, h4, h5, h6⟩ := ih hc
      simp only [callChain] at h
      cases c with
      | output n =>
        simp only [ruleCall] at h
        by_cases hb : (!jsHas files n) = true
        · rw [if_pos hb] at h; cases h
        · rw [if_neg hb] at h
          cases h
          exact ⟨h1, h2, h3, by simp [outputOf], fun c => by rw [h5]; simp [keyFor], h6⟩
      | attr a k =>
        simp only [ruleCall] at h
        cases hf : g.file with
        | none => rw [hf] at h; cases h
        | some file =>
          rw [hf] at h
          simp only at h
          cases ho : jsOwn files file with
          | none => rw [ho] at h; cases h
          | some f =>
            rw [ho] at h
            simp only at h
            by_cases hb : (!jsHas (f.columns.map fun c => (c.name, c)) a) = true
            · rw [if_pos hb] at h; cases h
            · rw [if_neg hb] at h
              cases h
              refine ⟨h1, h2, h3, ?_, fun c => ?_, ?_⟩
              · rw [hf] at h4
                simp only [h4]
                simp [outputOf]
              · simp only [jsOwn_jsPut, h5, keyFor, List.filterMap_append, List.filterMap_cons, List.filterMap_nil]
                by_cases hac : a = c
                · subst hac; simp
                · simp [hac]
              · exact jsPut_nodup h6
where
  jsPut_nodup {α : Type} {l : List (String × α)} {k : String} {v : α} (h : (l.map (·.1)).Nodup) :
      ((jsPut l k v).map (·.1)).Nodup := by
    have hm : ∀ (l : List (String × α)) x, x ∈ (jsPut l k v).map (·.1) → x = k ∨ x ∈ l.map (·.1) := by
      intro l
      induction l with
      | nil => intro x hx; simp [jsPut] at hx; exact Or.inl hx
      | cons p l ih =>
        intro x hx
        unfold jsPut at hx
        by_cases h : p.1 = k
        · rw [if_pos h] at hx
          simp only [List.map_cons, List.mem_cons] at hx ⊢
          rcases hx with hx | hx
          · exact Or.inl hx
          · exact Or.inr (Or.inr hx)
        · rw [if_neg h] at hx
          simp only [List.map_cons, List.mem_cons] at hx ⊢
          rcases hx with hx | hx
          · exact Or.inr (Or.inl hx)
          · rcases ih x hx with h | h
            · exact Or.inl h
            · exact Or.inr (Or.inr h)
    induction l with
    | nil => simp [jsPut]
    | cons p l ih =>
      rw [List.map_cons, List.nodup_cons] at h
      unfold jsPut
      by_cases hk : p.1 = k
      · rw [if_pos hk, List.map_cons, List.nodup_cons]
        exact ⟨hk ▸ h.1, h.2⟩
      · rw [if_neg hk, List.map_cons, List.nodup_cons]
        refine ⟨fun hx => ?_, ih h.2⟩
        rcases hm l _ hx with e | e
        · exact hk e
        · exact h.1 e

/-- How a written rule is kept. -/
structure KeptRule (w : WrittenRule) (r : ShapeRule) : Prop where
  key : r.key = w.key
  value : r.value = ruleValue w.value
  file : r.file = outputOf w.calls
  attrs : ∀ c, jsOwn r.attrs c = keyFor w.calls c
  nodup : (r.attrs.map (·.1)).Nodup

theorem rules_setRules (s : ShapeState) (k k' : RuleKind) (l : List ShapeRule) :
    (s.setRules k l).rules k' = if k = k' then l else s.rules k' := by
  cases k <;> cases k' <;> rfl

theorem files_setRules (s : ShapeState) (k : RuleKind) (l : List ShapeRule) : (s.setRules k l).files = s.files := by
  cases k <;> rfl

theorem loadConfig_meaning {cfg : List ConfigStmt} {s : ShapeState} (h : loadConfig cfg = .ok s) :
    (∀ name, (jsOwn s.files name).isSome = (shapefileDef cfg name).isSome) ∧
    (∀ name f calls, jsOwn s.files name = some f → shapefileDef cfg name = some calls →
      f.gtype = geometryType calls ∧ f.columns = columnsOf calls ∧ f.shp = none) ∧
    ∀ kind, List.Forall₂ KeptRule (rulesFor cfg kind) (s.rules kind) := by
  unfold loadConfig at h
  induction cfg using List.reverseRecOn generalizing s with
  | nil =>
    cases h
    refine ⟨fun _ => rfl, fun _ _ _ h => by simp [ShapeState.new, jsOwn] at h, fun k => ?_⟩
    cases k <;> exact List.Forall₂.nil
  | append_singleton cfg st ih =>
    rw [callChain_append] at h
    cases hc : callChain configStmt ShapeState.new cfg with
    | error e => rw [hc] at h; cases h
    | ok s0 =>
      rw [hc] at h
      obtain ⟨i1, i2, i3⟩ := ih hc
      simp only [callChain] at h
      cases st with
      | shapefile n calls =>
        simp only [configStmt] at h
        cases hf : callChain fileCall ⟨n, "point", [], none⟩ calls with
        | error e => rw [hf] at h; cases h
        | ok f =>
          rw [hf] at h
          cases h
          have hd : ∀ name, shapefileDef (cfg ++ [.shapefile n calls]) name =
              if n = name then some calls else shapefileDef cfg name := by
            intro name
            unfold shapefileDef
            by_cases hn : n = name <;> simp [hn]
          refine ⟨fun name => ?_, fun name g cs hg hcs => ?_, fun k => ?_⟩
          · rw [hd, jsOwn_jsPut]
            by_cases hn : n = name
            · simp [hn]
            · simp only [if_neg hn]; exact i1 name
          · rw [hd] at hcs
            rw [jsOwn_jsPut] at hg
            by_cases hn : n = name
            · rw [if_pos hn] at hg hcs
              cases hg; cases hcs
              exact fileCalls_def hf
            · rw [if_neg hn] at hg hcs
              exact i2 name g cs hg hcs
          · have := i3 k
            simpa [rulesFor, ShapeState.rules] using this
      | rule kind key value calls =>
        simp only [configStmt] at h
        cases hf : callChain (ruleCall s0.files) ⟨key, ruleValue value, none, [], none⟩ calls with
        | error e => rw [hf] at h; cases h
        | ok r =>
          rw [hf] at h
          cases h
          obtain ⟨r1, r2, -, r4, r5, r6⟩ := ruleCalls_rule hf
          have hd : ∀ name, shapefileDef (cfg ++ [.rule kind key value calls]) name = shapefileDef cfg name := by
            intro name; unfold shapefileDef; simp
          refine ⟨fun name => ?_, fun name g cs hg hcs => ?_, fun k => ?_⟩
          · rw [hd, files_setRules]; exact i1 name
          · rw [hd] at hcs
            rw [files_setRules] at hg
            exact i2 name g cs hg hcs
          · rw [rules_setRules]
            by_cases hk : kind = k
            · subst hk
              have hr : rulesFor (cfg ++ [.rule kind key value calls]) kind =
                  rulesFor cfg kind ++ [⟨key, value, calls⟩] := by simp [rulesFor]
              rw [hr, if_pos rfl]
              exact List.rel_append (i3 kind) (List.Forall₂.cons ⟨r1, r2, r4, r5, r6⟩ .nil)
            · have hr : rulesFor (cfg ++ [.rule kind key value calls]) k = rulesFor cfg k := by
                simp [rulesFor, hk]
              rw [hr, if_neg hk]
              exact i3 k

/-! ### Which rules apply -/

/-- `BarPart` for lists of characters. -/
def AltChars (s v : List Char) : Prop :=
  ∃ pre post, s = pre ++ v ++ post ∧ '|' ∉ v ∧
    (pre = [] ∨ ∃ p, pre = p ++ ['|']) ∧ (post = [] ∨ ∃ p, post = '|' :: p)

theorem splitBar_none {s : List Char} (h : '|' ∉ s) : splitBar s = [s] := by
  induction s with
  | nil => rfl
  | cons c s ih =>
    simp only [List.mem_cons, not_or] at h
    rw [splitBar, if_neg (Ne.symm h.1), ih h.2]

theorem splitBar_bar {a b : List Char} (h : '|' ∉ a) : splitBar (a ++ '|' :: b) = a :: splitBar b := by
  induction a with
  | nil => simp [splitBar]
  | cons c a ih =>
    simp only [List.mem_cons, not_or] at h
    rw [List.cons_append, splitBar, if_neg (Ne.symm h.1), ih h.2]

theorem firstBar (s : List Char) : '|' ∉ s ∨ ∃ a b, s = a ++ '|' :: b ∧ '|' ∉ a := by
  induction s with
  | nil => exact Or.inl (by simp)
  | cons c s ih =>
    by_cases hc : c = '|'
    · exact Or.inr ⟨[], s, by rw [hc]; rfl, by simp⟩
    · rcases ih with h | ⟨a, b, h1, h2⟩
      · exact Or.inl (by simp [h, Ne.symm hc])
      · exact Or.inr ⟨c :: a, b, by rw [h1]; rfl, by simp [h2, Ne.symm hc]⟩

theorem bar_split_unique {a b c d : List Char} (h : a ++ '|' :: b = c ++ '|' :: d) (ha : '|' ∉ a) :
    (c = a ∧ d = b) ∨ ∃ e, c = a ++ '|' :: e ∧ b = e ++ '|' :: d := by
  rcases List.append_eq_append_iff.1 h with ⟨x, h1, h2⟩ | ⟨x, h1, h2⟩
  · cases x with
    | nil =>
      simp only [List.append_nil, List.nil_append, List.cons.injEq, true_and] at h1 h2
      exact Or.inl ⟨h1, h2.symm⟩
    | cons y x =>
      simp only [List.cons_append, List.cons.injEq] at h2
      obtain ⟨rfl, h2⟩ := h2
      exact Or.inr ⟨x, h1, h2⟩
  · cases x with
    | nil =>
      simp only [List.append_nil, List.nil_append, List.cons.injEq, true_and] at h1 h2
      exact Or.inl ⟨h1.symm, h2⟩
    | cons y x =>
      simp only [List.cons_append, List.cons.injEq] at h2
      exact absurd (by rw [h1, h2.1]; simp) ha

theorem mem_splitBar : ∀ (s v : List Char), v ∈ splitBar s ↔ AltChars s v := by
  intro s
  induction hn : s.length using Nat.strong_induction_on generalizing s with
  | _ n ih =>
    intro v
    rcases firstBar s with h | ⟨a, b, rfl, ha⟩
    · rw [splitBar_none h, List.mem_singleton]
      constructor
      · rintro rfl
        exact ⟨[], [], by simp, h, Or.inl rfl, Or.inl rfl⟩
      · rintro ⟨pre, post, rfl, -, h1, h2⟩
        have e1 : pre = [] := by
          rcases h1 with h1 | ⟨p, rfl⟩
          · exact h1
          · exact absurd (by simp) h
        have e2 : post = [] := by
          rcases h2 with h2 | ⟨p, rfl⟩
          · exact h2
          · exact absurd (by simp) h
        subst e1 e2
        simp
    · rw [splitBar_bar ha, List.mem_cons, ih b.length (by simp only [← hn, List.length_append, List.length_cons]; omega) b rfl v]
      constructor
      · rintro (rfl | ⟨pre, post, rfl, h1, h2, h3⟩)
        · exact ⟨[], '|' :: b, by simp, ha, Or.inl rfl, Or.inr ⟨b, rfl⟩⟩
        · refine ⟨a ++ '|' :: pre, post, by simp, h1, Or.inr ?_, h3⟩
          rcases h2 with rfl | ⟨p, rfl⟩
          · exact ⟨a, rfl⟩
          · exact ⟨a ++ '|' :: p, by simp⟩
      · rintro ⟨pre, post, h0, h1, h2, h3⟩
        rcases h2 with rfl | ⟨p, rfl⟩
        · rcases h3 with rfl | ⟨q, rfl⟩
          · simp only [List.nil_append, List.append_nil] at h0
            exact absurd (by rw [← h0]; simp) h1
          · simp only [List.nil_append] at h0
            rcases bar_split_unique h0 ha with ⟨h4, -⟩ | ⟨e, h4, -⟩
            · exact Or.inl h4
            · exact absurd (by rw [h4]; simp) h1
        · simp only [List.append_assoc, List.cons_append, List.nil_append] at h0
          right
          rcases bar_split_unique h0 ha with ⟨-, h4⟩ | ⟨e, -, h5⟩
          · exact ⟨[], post, by simpa using h4.symm, h1, Or.inl rfl, h3⟩
          · exact ⟨e ++ ['|'], post, by simpa using h5, h1, Or.inr ⟨e, rfl⟩, h3⟩

theorem mem_splitBar_string (s v : String) : v ∈ (splitBar s.toList).map String.ofList ↔ BarPart s v := by
  rw [List.mem_map]
  constructor
  · rintro ⟨w, hw, rfl⟩
    have := (mem_splitBar _ _).1 hw
    simpa [BarPart, AltChars] using this
  · intro h
    exact ⟨v.toList, (mem_splitBar _ _).2 h, by simp⟩

theorem utf16_inj {a b : List Char} (h : utf16 a = utf16 b) : a = b := by
  have := decode_utf16 a
  rw [h, decode_utf16] at this
  exact (Option.some.inj this).symm

theorem jsEqText_text (v w : String) : jsEqText (jsText v) w = decide (v = w) := by
  simp only [jsEqText, jsText]
  rw [Bool.eq_iff_iff, decide_eq_true_iff, decide_eq_true_iff]
  constructor
  · intro h; exact String.toList_inj.1 (utf16_inj h)
  · rintro rfl; rfl

theorem any_jsEqText (v : String) (l : List String) : l.any (jsEqText (jsText v)) = true ↔ v ∈ l := by
  rw [List.any_eq_true]
  simp [jsEqText_text]

theorem jsTruthy_text (v : String) : jsTruthy (jsText v) = decide (v ≠ "") := by
  simp only [jsTruthy, jsText]
  rw [Bool.eq_iff_iff, decide_eq_true_iff, decide_eq_true_iff]
  constructor
  · rintro h rfl; exact h rfl
  · intro h e
    have : utf16 v.toList = utf16 "".toList := e
    exact h (String.toList_inj.1 (utf16_inj this))

theorem jsTagValue_first (tags : TagList) (key : String) :
    jsTagValue tags key.toList = match firstValue tags key with
      | some v => jsText v
      | none => .undefined := by
  have : tags.find? (fun t => decide (t.key.toList = key.toList)) = tags.find? (fun t => decide (t.key = key)) := by
    congr 1; funext t; simp only [String.toList_inj]
  unfold jsTagValue firstValue
  rw [this]
  cases tags.find? (fun t => decide (t.key = key)) <;> rfl

open Classical in
theorem ruleMatches_applies {r : WrittenRule} (hk : ScriptKey r.key) (hv : r.value ≠ .other) :
    ∃ m, buildFunc r.key (ruleValue r.value) = some m ∧
      ∀ tags : TagList, (∀ t ∈ tags, OsmText t.value) → ruleMatches tags m = .ok (decide (Applies r tags)) := by
  have tag : ∀ tags : TagList, (∀ t ∈ tags, OsmText t.value) → ∀ f : JsVal → Bool,
      (jsTag tags (jsLit r.key.toList)).map f = .ok (match firstValue tags r.key with
        | some v => f (jsText v)
        | none => f .undefined) := by
    intro tags ht f
    rw [jsLit_eq, script_tag_partial tags r.key hk.1 hk.2 ht, jsTagValue_first]
    cases firstValue tags r.key <;> rfl
  have app : ∀ tags : TagList, decide (Applies r tags) = match firstValue tags r.key with
      | some v => decide (v ≠ "" ∧ Allows r.value v)
      | none => false := by
    intro tags
    unfold Applies
    cases firstValue tags r.key with
    | none => simp
    | some v => simp
  have goal : ∀ (m : RuleMatch) (f : JsVal → Bool), buildFunc r.key (ruleValue r.value) = some m →
      (∀ tags, ruleMatches tags m = (jsTag tags (jsLit r.key.toList)).map f) → f .undefined = false →
      (∀ v, f (jsText v) = decide (v ≠ "" ∧ Allows r.value v)) →
      ∃ m, buildFunc r.key (ruleValue r.value) = some m ∧
        ∀ tags : TagList, (∀ t ∈ tags, OsmText t.value) → ruleMatches tags m = .ok (decide (Applies r tags)) := by
    intro m f h1 h2 h3 h4
    refine ⟨m, h1, fun tags ht => ?_⟩
    rw [h2, tag tags ht, app]
    cases firstValue tags r.key with
    | none => simp only [h3]
    | some v => simp only [h4]
  cases hval : r.value with
  | null =>
    rw [hval] at goal
    refine goal (.any r.key) jsTruthy rfl (fun _ => rfl) rfl fun v => ?_
    rw [jsTruthy_text]; simp [Allows]
  | other => exact absurd hval hv
  | list l =>
    rw [hval] at goal
    by_cases hs : l = ["*"]
    · refine goal (.any r.key) jsTruthy (by simp [ruleValue, hs, buildFunc]) (fun _ => rfl) rfl fun v => ?_
      rw [jsTruthy_text]; simp [Allows, hs]
    · refine goal (.oneOf r.key l) _ (by simp [ruleValue, hs, buildFunc]) (fun _ => rfl) rfl fun v => ?_
      rw [Bool.eq_iff_iff, decide_eq_true_iff]
      simp only [jsTruthy_text, Allows, hs, false_or]
      by_cases he : v = ""
      · simp [he]
      · simpa [he] using any_jsEqText v l
  | text s =>
    rw [hval] at goal
    by_cases hs : s = "*"
    · refine goal (.any r.key) jsTruthy (by simp [ruleValue, hs, buildFunc]) (fun _ => rfl) rfl fun v => ?_
      rw [jsTruthy_text]; simp [Allows, hs]
    · by_cases hb : '|' ∈ s.toList
      · refine goal (.oneOf r.key ((splitBar s.toList).map String.ofList)) _ ?_ (fun _ => rfl) rfl fun v => ?_
        · simp [ruleValue, hs, buildFunc, hb]
        · rw [Bool.eq_iff_iff, decide_eq_true_iff]
          simp only [jsTruthy_text, Allows, hs, false_or, ← mem_splitBar_string]
          by_cases he : v = ""
          · simp [he]
          · have := any_jsEqText v ((splitBar s.toList).map String.ofList)
            simp only [he, decide_not, decide_false, Bool.not_false, Bool.not_true, Bool.false_eq_true, if_false,
              ne_eq, not_false_eq_true, true_and]
            exact this
      · refine goal (.equals r.key s) _ ?_ (fun _ => rfl) rfl fun v => ?_
        · simp [ruleValue, hs, buildFunc, hb]
        · have : BarPart s v ↔ v = s := by
            rw [← mem_splitBar_string, splitBar_none hb]
            simp
          simp only [jsTruthy_text, jsEqText_text, Allows, hs, false_or, this]
          by_cases he : v = "" <;> simp [he]

theorem tags2attributes_lookup (toInt32 : JsString → Int) (o : ShapeObj) (ht : ∀ t ∈ o.tags, OsmText t.value)
    (calls : List RuleCall) (attrs : List (String × String)) (ha : ∀ c, jsOwn attrs c = keyFor calls c)
    (hn : (attrs.map (·.1)).Nodup) (hk : ∀ c key, keyFor calls c = some key → ScriptKey key) :
    ∃ obj, tags2attributes toInt32 o.id o.tags attrs = .ok obj ∧
      ∀ c, (jsOwn obj c).getD .missing = columnValue toInt32 o calls c := by
  have own : ∀ (attrs : List (String × String)), (attrs.map (·.1)).Nodup → ∀ a ∈ attrs, jsOwn attrs a.1 = some a.2 := by
    intro attrs
    induction attrs with
    | nil => simp
    | cons p l ih =>
      intro hn a ha
      rw [List.map_cons, List.nodup_cons] at hn
      rcases List.mem_cons.1 ha with rfl | ha
      · simp [jsOwn]
      · have : p.1 ≠ a.1 := fun e => hn.1 (List.mem_map.2 ⟨a, ha, e.symm⟩)
        simp only [jsOwn, if_neg this]
        exact ih hn.2 a ha
  have gen : ∀ (attrs : List (String × String)) (obj : List (String × ScriptAttr)),
      (attrs.map (·.1)).Nodup → (∀ a ∈ attrs, ScriptKey a.2) →
      ∃ obj', callChain (fun obj (a : String × String) =>
        match jsTag o.tags (jsLit a.2.toList) with
        | .error e => .error e
        | .ok v => .ok (jsPut obj a.1 (tagAttr toInt32 v))) obj attrs = .ok obj' ∧
      ∀ c, jsOwn obj' c = match jsOwn attrs c with
        | some key => some (tagAttr toInt32 (jsTagValue o.tags key.toList))
        | none => jsOwn obj c := by
    intro attrs
    induction attrs with
    | nil => intro obj _ _; exact ⟨obj, rfl, fun _ => rfl⟩
    | cons p l ih =>
      intro obj hn hk
      rw [List.map_cons, List.nodup_cons] at hn
      have hp := hk p List.mem_cons_self
      have ht := script_tag_partial o.tags p.2 hp.1 hp.2 ht
      obtain ⟨obj', h1, h2⟩ := ih (jsPut obj p.1 (tagAttr toInt32 (jsTagValue o.tags p.2.toList))) hn.2
        (fun a ha => hk a (List.mem_cons_of_mem _ ha))
      refine ⟨obj', ?_, fun c => ?_⟩
      · simp only [callChain, jsLit_eq, ht]
        exact h1
      · rw [h2]
        simp only [jsOwn]
        by_cases hc : p.1 = c
        · subst hc
          have : jsOwn l p.1 = none := by
            cases ho : jsOwn l p.1 with
            | none => rfl
            | some k =>
              exfalso
              apply hn.1
              clear h1 h2 ih hk hn
              induction l with
              | nil => cases ho
              | cons q l ih =>
                simp only [jsOwn] at ho
                by_cases hq : q.1 = p.1
                · simp [hq]
                · rw [if_neg hq] at ho
                  exact List.mem_cons_of_mem _ (ih ho)
          rw [this]
          simp [jsOwn_jsPut]
        · simp only [if_neg hc]
          cases jsOwn l c with
          | none => simp [jsOwn_jsPut, hc]
          | some k => rfl
  obtain ⟨obj, h1, h2⟩ := gen attrs [("id", idAttr o.id)] hn fun a hm => by
    have := own attrs hn a hm
    rw [ha] at this
    exact hk _ _ this
  refine ⟨obj, h1, fun c => ?_⟩
  rw [h2, ha]
  unfold columnValue
  cases keyFor calls c with
  | none =>
    simp only [jsOwn]
    by_cases hc : c = "id"
    · subst hc; rfl
    · simp [hc, Ne.symm hc]
  | some key =>
    simp only [Option.getD_some, jsTagValue_first]
    cases firstValue o.tags key <;> rfl

/-! ### Calls of a shapefile -/

/-- The table after calls that do not close the file. -/
def shpAfter (fits : DbfField → DbfValue → Bool) (t : ShpTable) (calls : List ShpCall) (t' : ShpTable) : Prop :=
  ∃ rs, shpRun fits t true calls = .ok (t', rs)

theorem shpRun_cons {fits : DbfField → DbfValue → Bool} {t : ShpTable} {c : ShpCall} (hc : c ≠ .close)
    (cs : List ShpCall) : shpRun fits t true (c :: cs) = (match shpRun fits t true [c] with
      | .error e => .error e
      | .ok (t', rs) => (shpRun fits t' true cs).map fun p => (p.1, rs ++ p.2)) := by
  cases c with
  | close => exact absurd rfl hc
  | addField args =>
    simp only [shpRun, if_true]
    cases scriptAddField fits t args with
    | error e => rfl
    | ok p => rfl
  | add g attrs =>
    simp only [shpRun, true_or, if_true]
    cases scriptAdd fits t g attrs with
    | error e => rfl
    | ok p => rfl

theorem shpAfter_cons {fits : DbfField → DbfValue → Bool} {t t1 t2 : ShpTable} {c : ShpCall} {cs : List ShpCall}
    (hc : c ≠ .close) (h1 : shpCall fits (t, true) c = .ok (t1, true)) (h2 : shpAfter fits t1 cs t2) :
    shpAfter fits t (c :: cs) t2 := by
  obtain ⟨rs2, h2⟩ := h2
  have : ∃ rs, shpRun fits t true [c] = .ok (t1, rs) := by
    cases c with
    | close => exact absurd rfl hc
    | addField args =>
      simp only [shpCall] at h1
      cases hr : shpRun fits t true [.addField args] with
      | error e => rw [hr] at h1; cases h1
      | ok p => rw [hr] at h1; cases h1; exact ⟨p.2, rfl⟩
    | add g attrs =>
      simp only [shpCall] at h1
      cases hr : shpRun fits t true [.add g attrs] with
      | error e => rw [hr] at h1; cases h1
      | ok p => rw [hr] at h1; cases h1; exact ⟨p.2, rfl⟩
  obtain ⟨rs, hr⟩ := this
  exact ⟨rs ++ rs2, by rw [shpRun_cons hc, hr]; simp only [h2]; rfl⟩

theorem shpCall_open {fits : DbfField → DbfValue → Bool} {t : ShpTable} {h : ShpTable × Bool} {c : ShpCall}
    (hc : c ≠ .close) (h1 : shpCall fits (t, true) c = .ok h) : h.2 = true := by
  cases c with
  | close => exact absurd rfl hc
  | addField args =>
    simp only [shpCall] at h1
    cases hr : shpRun fits t true [.addField args] with
    | error e => rw [hr] at h1; cases h1
    | ok p => rw [hr] at h1; cases h1; rfl
  | add g attrs =>
    simp only [shpCall] at h1
    cases hr : shpRun fits t true [.add g attrs] with
    | error e => rw [hr] at h1; cases h1
    | ok p => rw [hr] at h1; cases h1; rfl

theorem shpAfter_append {fits : DbfField → DbfValue → Bool} {t t1 t2 : ShpTable} {cs ds : List ShpCall}
    (hc : ShpCall.close ∉ cs) (h1 : shpAfter fits t cs t1) (h2 : shpAfter fits t1 ds t2) :
    shpAfter fits t (cs ++ ds) t2 := by
  induction cs generalizing t with
  | nil =>
    obtain ⟨rs, h1⟩ := h1
    cases h1
    exact h2
  | cons c cs ih =>
    obtain ⟨rs, h1⟩ := h1
    simp only [List.mem_cons, not_or] at hc
    rw [shpRun_cons (Ne.symm hc.1)] at h1
    cases hr : shpRun fits t true [c] with
    | error e => rw [hr] at h1; cases h1
    | ok p =>
      rw [hr] at h1
      simp only at h1
      cases hs : shpRun fits p.1 true cs with
      | error e => rw [hs] at h1; cases h1
      | ok q =>
        rw [hs] at h1
        cases h1
        obtain ⟨rs2, h3⟩ := ih hc.2 ⟨q.2, hs⟩
        exact ⟨p.2 ++ rs2, by rw [List.cons_append, shpRun_cons (Ne.symm hc.1), hr]; simp only [h3]; rfl⟩

/-- All files are open. -/
def AllOpen (files : List (String × ShapeDef)) : Prop :=
  ∀ n f, jsOwn files n = some f → ∃ t, f.shp = some (t, true)

/-- The table of a file. -/
def tableOf (files : List (String × ShapeDef)) (name : String) : Option (ShpTable × Bool) :=
  (jsOwn files name).bind (·.shp)

open Classical in
/-- One callback: every file gets what the rules say. -/
theorem checkRules_adds (fits : DbfField → DbfValue → Bool) (toInt32 : JsString → Int) (o : ShapeObj)
    (ht : ∀ t ∈ o.tags, OsmText t.value) (ws : List WrittenRule) (rs : List ShapeRule)
    (hr : List.Forall₂ (fun w r => KeptRule w r ∧ r.built = buildFunc w.key (ruleValue w.value)) ws rs)
    (files files' : List (String × ShapeDef))
    (hw : ∀ w ∈ ws, (∃ name, outputOf w.calls = some name ∧ (jsOwn files name).isSome) ∧ w.value ≠ .other ∧
      ScriptKey w.key ∧ ∀ column key, keyFor w.calls column = some key → ScriptKey key)
    (ho : AllOpen files) (h : checkRules fits toInt32 o files rs = .ok files') :
    AllOpen files' ∧ (∀ n, (jsOwn files' n).isSome = (jsOwn files n).isSome) ∧
    ∀ n t, tableOf files n = some (t, true) → ∃ t', tableOf files' n = some (t', true) ∧
      shpAfter fits t ((ws.filter fun r => outputOf r.calls = some n ∧ Applies r o.tags).map fun r =>
        .add o.geom (columnValue toInt32 o r.calls)) t' := by
  induction hr generalizing files with
  | nil =>
    cases h
    exact ⟨ho, fun _ => rfl, fun n t hn => ⟨t, hn, [], rfl⟩⟩
  | @cons w r ws rs hwr _ ih =>
    obtain ⟨hk, hb⟩ := hwr
    obtain ⟨⟨name, hname, hsome⟩, hother, hkey, hkeys⟩ := hw w List.mem_cons_self
    obtain ⟨m, hm1, hm2⟩ := ruleMatches_applies hkey hother
    have hw' := fun w' hw'' => hw w' (List.mem_cons_of_mem _ hw'')
    rw [checkRules, hb, hm1] at h
    simp only [hm2 o.tags ht] at h
    by_cases ha : Applies w o.tags
    · simp only [ha, decide_true] at h
      obtain ⟨obj, hobj, hlook⟩ := tags2attributes_lookup toInt32 o ht w.calls r.attrs hk.attrs hk.nodup hkeys
      rw [hobj, hk.file, hname] at h
      simp only at h
      cases hf : jsOwn files name with
      | none => rw [hf] at hsome; cases hsome
      | some f =>
        rw [hf] at h
        simp only at h
        obtain ⟨t0, ht0⟩ := ho name f hf
        rw [ht0] at h
        simp only at h
        have hattrs : (fun k => (jsOwn obj k).getD .missing) = columnValue toInt32 o w.calls := by
          funext k; exact hlook k
        rw [hattrs] at h
        cases hc : shpCall fits (t0, true) (.add o.geom (columnValue toInt32 o w.calls)) with
        | error e => rw [hc] at h; cases h
        | ok p =>
          rw [hc] at h
          simp only at h
          have hp : p = (p.1, true) := by
            rw [← shpCall_open (by simp) hc]
          have hisSome : ∀ n, (jsOwn (jsPut files name { f with shp := some p }) n).isSome = (jsOwn files n).isSome := by
            intro n
            rw [jsOwn_jsPut]
            by_cases hn : name = n
            · subst hn; simp [hf]
            · simp [hn]
          obtain ⟨i1, i2, i3⟩ := ih (jsPut files name { f with shp := some p })
            (fun w' hw'' => by
              obtain ⟨⟨n, h1, h2⟩, h3⟩ := hw' w' hw''
              exact ⟨⟨n, h1, by rw [hisSome]; exact h2⟩, h3⟩)
            (by
              intro n g hg
              rw [jsOwn_jsPut] at hg
              by_cases hn : name = n
              · rw [if_pos hn] at hg
                cases hg
                exact ⟨p.1, by rw [hp]⟩
              · rw [if_neg hn] at hg
                exact ho n g hg) h
          refine ⟨i1, fun n => by rw [i2, hisSome], fun n t hn => ?_⟩
          by_cases hnn : name = n
          · subst hnn
            have htt : t = t0 := by
              simp only [tableOf, hf, Option.bind_some, ht0, Option.some.injEq, Prod.mk.injEq, and_true] at hn
              exact hn.symm
            subst htt
            obtain ⟨t', j1, j2⟩ := i3 name p.1 (by simp only [tableOf, jsOwn_jsPut, if_pos, Option.bind_some]; rw [hp])
            refine ⟨t', j1, ?_⟩
            rw [List.filter_cons_of_pos (by simp [hname, ha]), List.map_cons]
            exact shpAfter_cons (by simp) (by rw [hc, ← hp]) j2
          · obtain ⟨t', j1, j2⟩ := i3 n t (by
              simp only [tableOf, jsOwn_jsPut, if_neg hnn]
              exact hn)
            refine ⟨t', j1, ?_⟩
            rw [List.filter_cons_of_neg (by simp [hname, hnn])]
            exact j2
    · simp only [ha, decide_false] at h
      obtain ⟨i1, i2, i3⟩ := ih files hw' ho h
      refine ⟨i1, i2, fun n t hn => ?_⟩
      rw [List.filter_cons_of_neg (by simp [ha])]
      exact i3 n t hn

/-! ### The whole run -/

theorem openShape_table {fits : DbfField → DbfValue → Bool} {f g : ShapeDef} (h : openShape fits f = .ok g) :
    ∃ t0 t, scriptOpenShp f.gtype = .ok t0 ∧ g.shp = some (t, true) ∧
      shpAfter fits t0 (f.columns.map fun c => .addField (columnArgs c)) t := by
  unfold openShape at h
  cases h0 : scriptOpenShp f.gtype with
  | error e => rw [h0] at h; cases h
  | ok t0 =>
    rw [h0] at h
    simp only at h
    have gen : ∀ (cols : List ShapeColumn) (t : ShpTable) (p : ShpTable × Bool),
        callChain (fun h c => shpCall fits h (.addField (columnArgs c))) (t, true) cols = .ok p →
        p.2 = true ∧ shpAfter fits t (cols.map fun c => .addField (columnArgs c)) p.1 := by
      intro cols
      induction cols with
      | nil => intro t p hp; cases hp; exact ⟨rfl, [], rfl⟩
      | cons c cols ih =>
        intro t p hp
        simp only [callChain] at hp
        cases hc : shpCall fits (t, true) (.addField (columnArgs c)) with
        | error e => rw [hc] at hp; cases hp
        | ok q =>
          rw [hc] at hp
          simp only at hp
          have hq : q = (q.1, true) := by rw [← shpCall_open (by simp) hc]
          rw [hq] at hp hc
          obtain ⟨h1, h2⟩ := ih q.1 p hp
          exact ⟨h1, shpAfter_cons (by simp) hc h2⟩
    cases hc : callChain (fun h c => shpCall fits h (.addField (columnArgs c))) (t0, true) f.columns with
    | error e => rw [hc] at h; cases h
    | ok p =>
      rw [hc] at h
      cases h
      obtain ⟨h1, h2⟩ := gen _ _ _ hc
      exact ⟨t0, p.1, rfl, by simp [← h1], h2⟩

theorem initFiles_tables {fits : DbfField → DbfValue → Bool} {files files' : List (String × ShapeDef)}
    (h : initFiles fits files = .ok files') (n : String) :
    match jsOwn files n with
    | none => jsOwn files' n = none
    | some f => ∃ g, openShape fits f = .ok g ∧ jsOwn files' n = some g := by
  induction files generalizing files' with
  | nil => cases h; exact rfl
  | cons p files ih =>
    obtain ⟨k, f⟩ := p
    simp only [initFiles] at h
    cases ho : openShape fits f with
    | error e => rw [ho] at h; cases h
    | ok g =>
      rw [ho] at h
      simp only at h
      cases hi : initFiles fits files with
      | error e => rw [hi] at h; cases h
      | ok l =>
        rw [hi] at h
        cases h
        simp only [jsOwn]
        by_cases hk : k = n
        · simp only [if_pos hk]
          exact ⟨g, ho, rfl⟩
        · simp only [if_neg hk]
          exact ih hi

theorem initRules_built {files : List (String × ShapeDef)} {ws : List WrittenRule} {rs : List ShapeRule}
    (hr : List.Forall₂ KeptRule ws rs)
    (hw : ∀ w ∈ ws, ∃ name, outputOf w.calls = some name ∧ name ≠ "" ∧ (jsOwn files name).isSome) :
    (initRules files rs).2 = true ∧
      List.Forall₂ (fun w r => KeptRule w r ∧ r.built = buildFunc w.key (ruleValue w.value)) ws (initRules files rs).1 := by
  induction hr with
  | nil => exact ⟨rfl, .nil⟩
  | @cons w r ws rs hk _ ih =>
    obtain ⟨name, h1, h2, h3⟩ := hw w List.mem_cons_self
    obtain ⟨i1, i2⟩ := ih fun w' hw' => hw w' (List.mem_cons_of_mem _ hw')
    have hf : (name ≠ "" && jsHas files name) = true := by simp [h2, jsHas, h3]
    simp only [initRules, hk.file, h1, hf, if_true]
    exact ⟨i1, .cons ⟨⟨hk.key, hk.value, h1.symm, hk.attrs, hk.nodup⟩, by rw [hk.key, hk.value]⟩ i2⟩

/-- **C110 (partial: for rules that write to a shapefile of the configuration and ask for texts, see
`osm2shape_number_value`, `osm2shape_inherited_name`; keys that are numbers and empty values are never found,
see `osm2shape_index_key`).**  Take a configuration and any sequence of nodes, ways and areas, and let the
program come to its end.  Then for each shapefile of the configuration the calls are: the columns in order, then
for each object and each rule for this file that applies, in order, the geometry with the values of the tags the
rule names (and the id), then the end.  Nothing else is written. -/
theorem osm2shape_calls_partial (fits : DbfField → DbfValue → Bool) (toInt32 : JsString → Int)
    (cfg : List ConfigStmt) (os : List ShapeObj) (s : ShapeState) (hg : GoodRules cfg)
    (ht : ∀ o ∈ os, ∀ t ∈ o.tags, OsmText t.value) (h : osm2shape fits toInt32 cfg os = .ok s)
    (name : String) (calls : List FileCall) (hn : shapefileDef cfg name = some calls) :
    ∃ t0 t rs, scriptOpenShp (geometryType calls) = .ok t0 ∧ tableOf s.files name = some (t, false) ∧
      shpRun fits t0 true ((columnsOf calls).map (fun c => .addField (columnArgs c)) ++
        additions toInt32 cfg name os ++ [.close]) = .ok (t, rs) := by
  unfold osm2shape at h
  cases hl : loadConfig cfg with
  | error e => rw [hl] at h; cases h
  | ok s0 =>
    rw [hl] at h
    simp only [shapeRun, shapeInit] at h
    obtain ⟨m1, m2, m3⟩ := loadConfig_meaning hl
    cases hi : initFiles fits s0.files with
    | error e => rw [hi] at h; cases h
    | ok files =>
      rw [hi] at h
      simp only at h
      have hft := initFiles_tables hi
      have hsome : ∀ n, (jsOwn files n).isSome = (shapefileDef cfg n).isSome := by
        intro n
        rw [← m1 n]
        have := hft n
        cases hj : jsOwn s0.files n with
        | none => rw [hj] at this; simp only at this; rw [this]
        | some f => rw [hj] at this; obtain ⟨g, -, hg⟩ := this; rw [hg]; rfl
      have hrules : ∀ k, ∀ w ∈ rulesFor cfg k, ∃ name, outputOf w.calls = some name ∧ name ≠ "" ∧ (jsOwn files name).isSome := by
        intro k w hw
        obtain ⟨⟨n, h1, h2, h3⟩, -⟩ := hg k w hw
        exact ⟨n, h1, h2, by rw [hsome]; exact h3⟩
      obtain ⟨n1, n2⟩ := initRules_built (m3 .node) (hrules .node)
      obtain ⟨w1, w2⟩ := initRules_built (m3 .way) (hrules .way)
      obtain ⟨a1, a2⟩ := initRules_built (m3 .area) (hrules .area)
      simp only [ShapeState.rules] at n1 n2 w1 w2 a1 a2
      rw [if_pos n1, if_pos w1] at h
      have hready : ∀ k, List.Forall₂ (fun w r => KeptRule w r ∧ r.built = buildFunc w.key (ruleValue w.value))
          (rulesFor cfg k) (ShapeState.rules ⟨files, (initRules files s0.node).1, (initRules files s0.way).1,
            (initRules files s0.area).1⟩ k) := by
        intro k; cases k <;> assumption
      have hopen : AllOpen files := by
        intro n g hgn
        have := hft n
        cases hj : jsOwn s0.files n with
        | none => rw [hj] at this; simp only at this; rw [this] at hgn; cases hgn
        | some f =>
          rw [hj] at this
          obtain ⟨g', hg1, hg2⟩ := this
          rw [hg2] at hgn
          cases hgn
          obtain ⟨t0, t, -, h2, -⟩ := openShape_table hg1
          exact ⟨t, h2⟩
      -- objects
      have gen : ∀ (os : List ShapeObj) (st st' : ShapeState), (∀ o ∈ os, ∀ t ∈ o.tags, OsmText t.value) →
          AllOpen st.files → (∀ n, (jsOwn st.files n).isSome = (shapefileDef cfg n).isSome) →
          (∀ k, List.Forall₂ (fun w r => KeptRule w r ∧ r.built = buildFunc w.key (ruleValue w.value))
            (rulesFor cfg k) (st.rules k)) →
          callChain (shapeObject fits toInt32) st os = .ok st' →
          ∀ n t, tableOf st.files n = some (t, true) → ∃ t', tableOf st'.files n = some (t', true) ∧
            shpAfter fits t (additions toInt32 cfg n os) t' := by
        intro os
        induction os with
        | nil => intro st st' _ _ _ _ h n t hn; cases h; exact ⟨t, hn, [], rfl⟩
        | cons o os ih =>
          intro st st' ht ho hs hr h n t hn
          simp only [callChain, shapeObject] at h
          cases hc : checkRules fits toInt32 o st.files (st.rules o.kind) with
          | error e => rw [hc] at h; cases h
          | ok files1 =>
            rw [hc] at h
            simp only at h
            obtain ⟨c1, c2, c3⟩ := checkRules_adds fits toInt32 o (ht o List.mem_cons_self) _ _ (hr o.kind) st.files files1
              (fun w hw => by
                obtain ⟨⟨n, h1, h2, h3⟩, h4⟩ := hg o.kind w hw
                exact ⟨⟨n, h1, by rw [hs]; exact h3⟩, h4⟩) ho hc
            obtain ⟨t1, j1, j2⟩ := c3 n t hn
            obtain ⟨t2, k1, k2⟩ := ih { st with files := files1 } st' (fun o' ho' => ht o' (List.mem_cons_of_mem _ ho'))
              c1 (fun n => by rw [← hs]; exact c2 n) (fun k => by have := hr k; cases k <;> exact this) h n t1 j1
            refine ⟨t2, k1, ?_⟩
            exact shpAfter_append (by simp) j2 k2
      cases hc : callChain (shapeObject fits toInt32) ⟨files, (initRules files s0.node).1, (initRules files s0.way).1,
          (initRules files s0.area).1⟩ os with
      | error e => rw [hc] at h; cases h
      | ok s1 =>
        rw [hc] at h
        cases h
        -- the file
        cases hf0 : jsOwn s0.files name with
        | none =>
          have := m1 name
          rw [hf0, hn] at this
          cases this
        | some f0 =>
          obtain ⟨e1, e2, e3⟩ := m2 name f0 calls hf0 hn
          have := hft name
          rw [hf0] at this
          obtain ⟨g, g1, g2⟩ := this
          obtain ⟨t0, t1, o1, o2, o3⟩ := openShape_table g1
          rw [e1] at o1
          rw [e2] at o3
          obtain ⟨t2, k1, k2⟩ := gen os _ s1 ht hopen hsome hready hc name t1 (by simp [tableOf, g2, o2])
          obtain ⟨rs, hrun⟩ := shpAfter_append (by simp [additions]) (shpAfter_append (by simp) o3 k2) (ds := [.close]) (t2 := t2) ⟨[], rfl⟩
          refine ⟨t0, t2, rs, o1, ?_, hrun⟩
          have hm : ∀ (l : List (String × ShapeDef)), tableOf (l.map fun p =>
              (p.1, { p.2 with shp := p.2.shp.map fun h => (h.1, false) })) name =
              (tableOf l name).map fun h => (h.1, false) := by
            intro l
            unfold tableOf
            induction l with
            | nil => rfl
            | cons p l ih =>
              simp only [List.map_cons, jsOwn]
              by_cases hp : p.1 = name
              · simp [hp]
              · simp only [if_neg hp]; exact ih
          simp only [shapeEnd, hm, k1, Option.map_some]

end Osmium

import Verif.Examples.ToShape
import Verif.Javascript.ExportsProps
import Verif.Handler.LocatedFile
import Verif.Geometry.ShpProps
import Mathlib.Data.List.TakeWhile

/-
Property C87: the shapefiles that osmium_toshape makes of a file.
-/
namespace Osmium
open Spec

namespace Spec

/-- A text of a tag, as C functions see it. -/
def tagText (v : String) : List Char := v.toList.takeWhile (· ≠ '\x00')

/-- The node is a post box. -/
def IsPostBox (n : Node) : Prop :=
  ∃ v, TagList.getValueByKey n.obj.tags "amenity" = some v ∧ tagText v = "post_box".toList

instance (n : Node) : Decidable (IsPostBox n) := by
  unfold IsPostBox
  cases TagList.getValueByKey n.obj.tags "amenity" with
  | none => exact isFalse (by rintro ⟨v, h, -⟩; cases h)
  | some v =>
    exact if h : tagText v = "post_box".toList then isTrue ⟨v, rfl, h⟩
      else isFalse (by rintro ⟨v', h1, h2⟩; cases h1; exact h h2)

/-- The way is a road. -/
def IsRoad (w : Way) : Prop := (TagList.getValueByKey w.obj.tags "highway").isSome = true

instance (w : Way) : Decidable (IsRoad w) := by unfold IsRoad; infer_instance

/-- The shape and the record for a post box: its position; its id, and the operator if there is one (as much as
fits into 30 bytes). -/
def PostBoxRow (ident : ShpObject → Nat) (n : Node) (r : ShpShape × DbfRow) : Prop :=
  r.1 = ⟨.point, 0, 1, ident ⟨[], [n.position.lon], [n.position.lat]⟩⟩ ∧
  match TagList.getValueByKey n.obj.tags "operator" with
  | none => r.2 = [(0, .double n.obj.id)]
  | some op => ∃ b, StoredText 30 (tagText op) b ∧ r.2 = [(0, .double n.obj.id), (1, .string b)]

/-- The points of a line: the positions, without those that equal the one before. -/
def linePoints (w : Way) : List Position := squeeze (w.nodes.map (·.position))

/-- The shape and the record for a road: its points in order; its id and the type of the road. -/
def RoadRow (ident : ShpObject → Nat) (w : Way) (r : ShpShape × DbfRow) : Prop :=
  r.1 = ⟨.arc, 1, (linePoints w).length,
    ident ⟨[0], (linePoints w).map Position.lon, (linePoints w).map Position.lat⟩⟩ ∧
  ∃ v b, TagList.getValueByKey w.obj.tags "highway" = some v ∧ StoredText 30 (tagText v) b ∧
    r.2 = [(0, .double w.obj.id), (1, .string b)]

/-- The last node of the way is in the file, at a place. -/
def EndsInFile (ns : List Node) (w : Way) : Prop :=
  ∃ wn ∈ w.nodes.getLast?, ∃ n ∈ ns, n.obj.id = wn.ref ∧ n.position.defined = true

/-- Values that fit into the fields: the ids of the objects, and texts of at most 30 bytes. -/
def ValuesFit (fits : DbfField → DbfValue → Bool) (ids : List Int) : Prop :=
  (∀ i ∈ ids, |i| ≤ 9007199254740992 ∧ fits ⟨"id", .double, 12, 0⟩ (.double i) = true) ∧
  ∀ b : List UInt8, b.length ≤ 30 →
    fits ⟨"operator", .string, 30, 0⟩ (.string b) = true ∧ fits ⟨"type", .string, 30, 0⟩ (.string b) = true

end Spec

/-! ### Adding rows -/

/-- A shapefile in which all shapes have their records. (helper for statements and proofs, no counterpart in
/repo) -/
structure Filled (fields : List DbfField) (type : ShpType) (told : List (ShpShape × DbfRow)) (t : ShpTable) : Prop where
  inv : TableInv t told
  full : t.rows.length = t.base.cur.shapes.length
  fieldsEq : t.base.fields = fields
  typeEq : t.base.type = type

theorem attrs_ok {fits : DbfField → DbfValue → Bool} {fields : List DbfField} (s : ShpShape)
    (told : List (ShpShape × DbfRow)) :
    ∀ (attrs : DbfRow) (row : DbfRow) (t : ShpTable), TableInv t (told ++ [(s, row)]) →
      t.base.fields = fields → t.current ≤ t.rows.length → t.rows.length ≤ t.current + 1 →
      (∀ a ∈ attrs, ∃ f, fields[a.1]? = some f ∧ fits f a.2 = true) →
      ∃ t', t.run fits (attrs.map fun a => .attr a.1 a.2) = .ok t' ∧ TableInv t' (told ++ [(s, row ++ attrs)]) ∧
        t'.base = t.base ∧ t'.current = t.current ∧
        t'.rows.length = if attrs = [] then t.rows.length else t.current + 1
  | [], row, t, hi, _, _, _, _ => ⟨t, rfl, by rw [List.append_nil]; exact hi, rfl, rfl, rfl⟩
  | a :: attrs, row, t, hi, hf, h1, h2, hv => by
    obtain ⟨f, v1, v2⟩ := hv a List.mem_cons_self
    have hs : ∃ t1, t.step fits (.attr a.1 a.2) = .ok t1 ∧ t1.base = t.base ∧ t1.current = t.current ∧
        t1.rows.length = t.current + 1 := by
      simp only [ShpTable.step, bind, Except.bind, dbfWrite, hf, v1]
      rw [if_neg (by rw [v2]; simp; omega)]
      by_cases he : t.current = t.rows.length
      · rw [if_pos he]
        exact ⟨_, rfl, rfl, rfl, by simp [he]⟩
      · rw [if_neg he]
        exact ⟨_, rfl, rfl, rfl, by simp; omega⟩
    obtain ⟨t1, s1, s2, s3, s4⟩ := hs
    have hi1 := tableInv_attribute hi (by simp) s1
    rw [modify_last told (s, row) _ _ (by simp)] at hi1
    obtain ⟨t', r1, r2, r3, r4, r5⟩ := attrs_ok s told attrs (row ++ [a]) t1 hi1 (by rw [s2, hf]) (by omega) (by omega)
      (fun b hb => hv b (List.mem_cons_of_mem _ hb))
    refine ⟨t', ?_, ?_, by rw [r3, s2], by rw [r4, s3], ?_⟩
    · rw [List.map_cons, ShpTable.run, s1]
      exact r1
    · rw [List.append_assoc] at r2
      exact r2
    · rw [r5, s4, s3]
      simp

theorem addRow_ok {fits : DbfField → DbfValue → Bool} {fields : List DbfField} {type : ShpType}
    {told : List (ShpShape × DbfRow)} {t : ShpTable} (h : Filled fields type told t) (s : ShpShape) (hs : s.type = type)
    (attrs : DbfRow) (hne : attrs ≠ []) (hv : ∀ a ∈ attrs, ∃ f, fields[a.1]? = some f ∧ fits f a.2 = true) :
    ∃ t', addRow fits t s attrs = .ok t' ∧ Filled fields type (told ++ [(s, attrs)]) t' := by
  have hg : ∃ t1, t.step fits (.geometry s) = .ok t1 ∧ t1.current = t1.rows.length ∧
      t1.base.cur.shapes.length = t1.current + 1 := by
    cases hst : t.step fits (.geometry s) with
    | error e => exact absurd (hs.trans h.typeEq.symm) (step_geometry_error hst).1
    | ok t1 =>
      refine ⟨t1, rfl, ?_⟩
      simp only [ShpTable.step, bind, Except.bind] at hst
      split at hst
      · cases hst
      · rename_i b hb
        obtain ⟨_, _, h' | h'⟩ := addGeometry_cases hb
        · rw [if_pos h'.1] at hst
          cases hst
          simp only [h'.2.2, List.length_append, List.length_singleton, h.full]
          omega
        · rw [if_neg (by omega)] at hst
          cases hst
          simp [h'.2.2]
  obtain ⟨t1, g1, g2, g3⟩ := hg
  obtain ⟨b1, b2, -⟩ := step_geometry_base g1
  have hi1 := tableInv_geometry h.inv g1
  obtain ⟨t', r1, r2, r3, r4, r5⟩ := attrs_ok (fits := fits) (fields := fields) s told attrs [] t1 hi1
    (by rw [b1, h.fieldsEq]) (by omega) (by omega) hv
  refine ⟨t', ?_, ⟨by rw [List.nil_append] at r2; exact r2, ?_, by rw [r3, b1, h.fieldsEq], by rw [r3, b2, h.typeEq]⟩⟩
  · unfold addRow
    rw [ShpTable.run, g1]
    exact r1
  · rw [r5, if_neg hne, r3]
    omega

theorem cText_nonzero (v : String) : '\x00' ∉ cText v := by
  intro h
  have := List.all_eq_true.1 (List.all_takeWhile (p := fun c : Char => decide (c ≠ '\x00')) (l := v.toList)) _ h
  simp at this

theorem truncate_stored (v : String) :
    ∃ b, truncateAttribute 30 (cBytes v) = .ok b ∧ StoredText 30 (tagText v) b ∧ b.length ≤ 30 := by
  have h0 := cText_nonzero v
  obtain ⟨k, h1, h2, h3, h4⟩ := truncate_utf8_partial (cText v) 30 h0 (clipWidth_of _ _ (by omega))
  refine ⟨_, h2, ?_, h3⟩
  refine ⟨(cText v).take k, (cText v).drop k, by rw [List.take_append_drop]; rfl, h3, ?_, ?_⟩
  · intro c rest hr
    rcases h4 with h4 | h4
    · subst h4
      rw [List.drop_length] at hr
      cases hr
    · have : (cText v).take k ++ [c] = (cText v).take (k + 1) := by
        have hk : (cText v)[k]? = some c := by
          have := congrArg List.head? hr
          rwa [List.head?_drop, List.head?_cons] at this
        rw [List.take_succ, hk]
        rfl
      rw [this]
      exact h4
  · congr 1
    symm
    rw [List.takeWhile_eq_self_iff]
    intro c hc
    have : c ≠ '\x00' := by
      intro e
      subst e
      exact h0 (List.mem_of_mem_take hc)
    simpa using this

/-! ### One object -/

/-- The fields of the two files. (helper for statements and proofs, no counterpart in /repo) -/
def boxFields : List DbfField := [⟨"id", .double, 12, 0⟩, ⟨"operator", .string, 30, 0⟩]
/-- (helper for statements and proofs, no counterpart in /repo) -/
def roadFields : List DbfField := [⟨"id", .double, 12, 0⟩, ⟨"type", .string, 30, 0⟩]

theorem toshapeNode_ok {fits : DbfField → DbfValue → Bool} {ident : ShpObject → Nat} {ids : List Int}
    (hf : ValuesFit fits ids) {told : List (ShpShape × DbfRow)} {t : ShpTable} (h : Filled boxFields .point told t)
    (n : Node) (hn : n.obj.id ∈ ids) :
    ∃ t', toshapeNode fits ident t n = .ok t' ∧
      (¬ IsPostBox n → Filled boxFields .point told t') ∧
      (IsPostBox n → ∃ r, PostBoxRow ident n r ∧ Filled boxFields .point (told ++ [r]) t') := by
  unfold toshapeNode
  cases ha : TagList.getValueByKey n.obj.tags "amenity" with
  | none =>
    refine ⟨t, rfl, fun _ => h, ?_⟩
    rintro ⟨v, h1, -⟩
    rw [ha] at h1; cases h1
  | some v =>
    simp only
    by_cases hv : cText v = "post_box".toList
    · rw [if_pos hv]
      have hbox : IsPostBox n := ⟨v, ha, hv⟩
      have hid := hf.1 _ hn
      have hfl : fl (n.obj.id : ℚ) = n.obj.id := fl_int _ hid.1
      cases ho : TagList.getValueByKey n.obj.tags "operator" with
      | none =>
        obtain ⟨t', r1, r2⟩ := addRow_ok (fits := fits) h (shapeOf ident .point (pointObject n.position)) rfl
          [(0, .double (fl n.obj.id))] (by simp) (by
            intro a ha
            simp only [List.mem_singleton] at ha
            subst ha
            exact ⟨_, rfl, by rw [hfl]; exact hid.2⟩)
        refine ⟨t', by simp only [r1]; rfl, fun hno => absurd hbox hno, fun _ => ⟨_, ⟨rfl, ?_⟩, r2⟩⟩
        rw [ho, hfl]
      | some op =>
        obtain ⟨b, b1, b2, b3⟩ := truncate_stored op
        obtain ⟨t', r1, r2⟩ := addRow_ok (fits := fits) h (shapeOf ident .point (pointObject n.position)) rfl
          [(0, .double (fl n.obj.id)), (1, .string b)] (by simp) (by
            intro a ha
            simp only [List.mem_cons, List.not_mem_nil, or_false] at ha
            rcases ha with rfl | rfl
            · exact ⟨_, rfl, by rw [hfl]; exact hid.2⟩
            · exact ⟨_, rfl, (hf.2 b b3).1⟩)
        refine ⟨t', by simp only [b1, r1]; rfl, fun hno => absurd hbox hno, fun _ => ⟨_, ⟨rfl, ?_⟩, r2⟩⟩
        rw [ho]
        exact ⟨b, b2, by rw [hfl]⟩
    · rw [if_neg hv]
      refine ⟨t, rfl, fun _ => h, ?_⟩
      rintro ⟨v', h1, h2⟩
      rw [ha] at h1; cases h1
      exact absurd h2 hv

theorem toshapeWay_ok {fits : DbfField → DbfValue → Bool} {ident : ShpObject → Nat} {ids : List Int}
    (hf : ValuesFit fits ids) {told : List (ShpShape × DbfRow)} {t : ShpTable} (h : Filled roadFields .arc told t)
    (w : Way) (hw : w.obj.id ∈ ids) (hc : Consistent w.nodes) (hp : IsRoad w → wayNodesHasPosition w.nodes = true) :
    ∃ t', toshapeWay fits ident t w = .ok t' ∧
      (¬ (IsRoad w ∧ 2 ≤ (linePoints w).length) → Filled roadFields .arc told t') ∧
      (IsRoad w ∧ 2 ≤ (linePoints w).length → ∃ r, RoadRow ident w r ∧ Filled roadFields .arc (told ++ [r]) t') := by
  unfold toshapeWay
  cases ha : TagList.getValueByKey w.obj.tags "highway" with
  | none =>
    refine ⟨t, rfl, fun _ => h, ?_⟩
    rintro ⟨h1, -⟩
    unfold IsRoad at h1
    rw [ha] at h1; cases h1
  | some v =>
    simp only
    have hr : IsRoad w := by unfold IsRoad; rw [ha]; rfl
    obtain ⟨-, p2, p3⟩ := shp_points_partial (LineString.new w.nodes false w.obj.id) hc
    by_cases hl : 2 ≤ (linePoints w).length
    · obtain ⟨ps, e1, e2⟩ := p3 (hp hr) hl
      have e1 : ps = linePoints w := e1
      subst e1
      obtain ⟨b, b1, b2, b3⟩ := truncate_stored v
      have hid := hf.1 _ hw
      have hfl : fl (w.obj.id : ℚ) = w.obj.id := fl_int _ hid.1
      obtain ⟨t', r1, r2⟩ := addRow_ok (fits := fits) h (shapeOf ident .arc ⟨[0], (linePoints w).map Position.lon,
          (linePoints w).map Position.lat⟩) rfl [(0, .double (fl w.obj.id)), (1, .string b)] (by simp) (by
            intro a ha
            simp only [List.mem_cons, List.not_mem_nil, or_false] at ha
            rcases ha with rfl | rfl
            · exact ⟨_, rfl, by rw [hfl]; exact hid.2⟩
            · exact ⟨_, rfl, (hf.2 b b3).2⟩)
      refine ⟨t', by simp only [e2, b1, r1]; rfl, fun hno => absurd ⟨hr, hl⟩ hno, fun _ => ⟨_, ⟨?_, ?_⟩, r2⟩⟩
      · simp [shapeOf]
      · exact ⟨v, b, ha, b2, by rw [hfl]⟩
    · have e2 := p2 (hp hr) (by unfold linePoints at hl; exact Nat.lt_of_not_le hl)
      refine ⟨t, by rw [e2]; rfl, fun _ => h, fun hh => absurd hh.2 hl⟩

/-! ### Sequences of calls -/

/-- The tables after some calls of which the arguments are as the handler for coordinates left them. (helper for
statements and proofs, no counterpart in /repo) -/
def tablesRun (fits : DbfField → DbfValue → Bool) (ident : ShpObject → Nat) :
    ShpTable × ShpTable → List Cb → Res (ShpTable × ShpTable)
  | s, [] => .ok s
  | s, c :: cs =>
    match toshapeTables fits ident s c with
    | .error e => .error e
    | .ok s => tablesRun fits ident s cs

theorem toshapeRun_eq {S T : Type} {pos : IdStore S Position} {neg : IdStore T Position}
    (fits : DbfField → DbfValue → Bool) (ident : ShpObject → Nat) (calls : List Cb) (c : S × T) (out : List Cb)
    (s : ShpTable × ShpTable) (h : cfwRun pos neg c calls = .ok out) :
    toshapeRun pos neg fits ident c s calls = tablesRun fits ident s out := by
  induction calls generalizing c out s with
  | nil => cases h; rfl
  | cons call calls ih =>
    unfold cfwRun at h
    cases h1 : cfwStep pos neg c call with
    | error e => rw [h1] at h; cases h
    | ok r =>
      rw [h1] at h
      change (do let out ← cfwRun pos neg r.1 calls; return r.2 :: out) = _ at h
      cases h2 : cfwRun pos neg r.1 calls with
      | error e => rw [h2] at h; cases h
      | ok o =>
        rw [h2] at h
        cases h
        rw [toshapeRun, tablesRun, h1]
        obtain ⟨c', call'⟩ := r
        simp only
        cases toshapeTables fits ident s call' with
        | error e => rfl
        | ok s' => exact ih c' o s' h2

theorem tablesRun_append (fits : DbfField → DbfValue → Bool) (ident : ShpObject → Nat) (s : ShpTable × ShpTable)
    (a b : List Cb) : tablesRun fits ident s (a ++ b) =
      (match tablesRun fits ident s a with
       | .error e => .error e
       | .ok s => tablesRun fits ident s b) := by
  induction a generalizing s with
  | nil => rfl
  | cons c a ih =>
    rw [List.cons_append, tablesRun, tablesRun]
    cases toshapeTables fits ident s c with
    | error e => rfl
    | ok s => exact ih s

/-- What the nodes and ways among the calls add to the two files. -/
theorem tablesRun_ok {fits : DbfField → DbfValue → Bool} {ident : ShpObject → Nat} {ids : List Int}
    (hf : ValuesFit fits ids) (calls : List Cb)
    (hn : ∀ n, Cb.obj (.node n) ∈ calls → n.obj.id ∈ ids)
    (hw : ∀ w, Cb.obj (.way w) ∈ calls → w.obj.id ∈ ids ∧ Consistent w.nodes ∧
      (IsRoad w → wayNodesHasPosition w.nodes = true))
    (s : ShpTable × ShpTable) (a b : List (ShpShape × DbfRow)) (h1 : Filled boxFields .point a s.1)
    (h2 : Filled roadFields .arc b s.2) :
    ∃ s' a' b', tablesRun fits ident s calls = .ok s' ∧ Filled boxFields .point (a ++ a') s'.1 ∧
      Filled roadFields .arc (b ++ b') s'.2 ∧
      List.Forall₂ (PostBoxRow ident)
        ((calls.filterMap fun | .obj (.node n) => some n | _ => none).filter fun n => IsPostBox n) a' ∧
      List.Forall₂ (RoadRow ident) ((calls.filterMap fun | .obj (.way w) => some w | _ => none).filter fun w =>
        IsRoad w ∧ 2 ≤ (linePoints w).length) b' := by
  induction calls generalizing s a b with
  | nil => exact ⟨s, [], [], rfl, by simpa using h1, by simpa using h2, .nil, .nil⟩
  | cons c calls ih =>
    have ih := ih (fun n h => hn n (List.mem_cons_of_mem _ h)) (fun w h => hw w (List.mem_cons_of_mem _ h))
    rw [tablesRun]
    cases c with
    | obj o =>
      cases o with
      | node n =>
        obtain ⟨t', r1, r2, r3⟩ := toshapeNode_ok (ident := ident) hf h1 n (hn n (by simp))
        have e : toshapeTables fits ident s (.obj (.node n)) = .ok (t', s.2) := by
          rw [toshapeTables, r1]; rfl
        rw [e]
        simp only [List.filterMap_cons, List.filter_cons]
        by_cases hb : IsPostBox n
        · obtain ⟨r, q1, q2⟩ := r3 hb
          obtain ⟨s', a', b', g1, g2, g3, g4, g5⟩ := ih (t', s.2) (a ++ [r]) b q2 h2
          refine ⟨s', r :: a', b', g1, by simpa using g2, g3, ?_, g5⟩
          simp only [hb, decide_true, if_true]
          exact .cons q1 g4
        · obtain ⟨s', a', b', g1, g2, g3, g4, g5⟩ := ih (t', s.2) a b (r2 hb) h2
          exact ⟨s', a', b', g1, g2, g3, by simpa [hb] using g4, g5⟩
      | way w =>
        obtain ⟨k1, k2, k3⟩ := hw w (by simp)
        obtain ⟨t', r1, r2, r3⟩ := toshapeWay_ok (ident := ident) hf h2 w k1 k2 k3
        have e : toshapeTables fits ident s (.obj (.way w)) = .ok (s.1, t') := by
          rw [toshapeTables, r1]; rfl
        rw [e]
        simp only [List.filterMap_cons, List.filter_cons]
        by_cases hb : IsRoad w ∧ 2 ≤ (linePoints w).length
        · obtain ⟨r, q1, q2⟩ := r3 hb
          obtain ⟨s', a', b', g1, g2, g3, g4, g5⟩ := ih (s.1, t') a (b ++ [r]) h1 q2
          refine ⟨s', a', r :: b', g1, g2, by simpa using g3, g4, ?_⟩
          rw [if_pos (by simpa using hb)]
          exact .cons q1 g5
        · obtain ⟨s', a', b', g1, g2, g3, g4, g5⟩ := ih (s.1, t') a b h1 (r2 hb)
          refine ⟨s', a', b', g1, g2, g3, g4, ?_⟩
          rw [if_neg (by simpa using hb)]
          exact g5
      | relation r =>
        rw [show toshapeTables fits ident s (.obj (.relation r)) = .ok s from rfl]
        exact ih s a b h1 h2
    | init m =>
      rw [show toshapeTables fits ident s (.init m) = .ok s from rfl]
      exact ih s a b h1 h2
    | before t =>
      rw [show toshapeTables fits ident s (.before t) = .ok s from rfl]
      exact ih s a b h1 h2
    | after t =>
      rw [show toshapeTables fits ident s (.after t) = .ok s from rfl]
      exact ih s a b h1 h2
    | final =>
      rw [show toshapeTables fits ident s .final = .ok s from rfl]
      exact ih s a b h1 h2

theorem toshapeNew_ok (fits : DbfField → DbfValue → Bool) :
    ∃ s, toshapeNew fits = .ok s ∧ Filled boxFields .point [] s.1 ∧ Filled roadFields .arc [] s.2 := by
  refine ⟨_, rfl, ⟨?_, rfl, rfl, rfl⟩, ⟨?_, rfl, rfl, rfl⟩⟩
  · exact ⟨rfl, by decide, by intro h; exact absurd rfl h, fun _ => rfl, rfl⟩
  · exact ⟨rfl, by decide, by intro h; exact absurd rfl h, fun _ => rfl, rfl⟩

/-! ### Files -/

theorem filterMap_runCalls {β : Type} (f : OsmObj → Option β) (xs : List OsmObj) :
    (runCalls xs).filterMap (fun | .obj o => f o | _ => none) = xs.filterMap f := by
  cases xs with
  | nil => rfl
  | cons x xs =>
    have : ∀ (l : List OsmObj), (l.map Cb.obj).filterMap (fun | .obj o => f o | _ => none) = l.filterMap f := by
      intro l
      rw [List.filterMap_map]
      rfl
    show ([Cb.before x.type] ++ (x :: xs).map Cb.obj ++ [Cb.after x.type]).filterMap _ = _
    rw [List.filterMap_append, List.filterMap_append, this]
    simp

theorem filterMap_protocol {β : Type} (f : OsmObj → Option β) (m : Meta) (ns : List Node) (ws : List Way)
    (rs : List Relation) :
    (protocol m (fileOf ns ws rs)).filterMap (fun | .obj o => f o | _ => none) = (fileOf ns ws rs).filterMap f := by
  rw [protocol_fileOf, List.filterMap_append, List.filterMap_append, List.filterMap_append, List.filterMap_cons]
  simp only
  rw [filterMap_runCalls, filterMap_runCalls, filterMap_runCalls]
  unfold fileOf
  simp [List.filterMap_append]

theorem nodesOf_file (m : Meta) (ns : List Node) (ws : List Way) (rs : List Relation) :
    (protocol m (fileOf ns ws rs)).filterMap (fun | .obj (.node n) => some n | _ => none) = ns := by
  have := filterMap_protocol (fun | .node n => some n | _ => none) m ns ws rs
  have e : (fun c : Cb => match c with | .obj (.node n) => some n | _ => none) =
      (fun | .obj o => (fun | OsmObj.node n => some n | _ => none) o | _ => none) := by
    funext c
    cases c with
    | obj o => cases o <;> rfl
    | _ => rfl
  rw [e, this]
  unfold fileOf
  simp [List.filterMap_append, List.filterMap_map, Function.comp_def]

theorem waysOf_file (m : Meta) (ns : List Node) (ws : List Way) (rs : List Relation) :
    (protocol m (fileOf ns ws rs)).filterMap (fun | .obj (.way n) => some n | _ => none) = ws := by
  have := filterMap_protocol (fun | .way n => some n | _ => none) m ns ws rs
  have e : (fun c : Cb => match c with | .obj (.way n) => some n | _ => none) =
      (fun | .obj o => (fun | OsmObj.way n => some n | _ => none) o | _ => none) := by
    funext c
    cases c with
    | obj o => cases o <;> rfl
    | _ => rfl
  rw [e, this]
  unfold fileOf
  simp [List.filterMap_append, List.filterMap_map, Function.comp_def]

theorem consistent_of_located {ns : List Node} {unset : Position} {w w' : Way} (h : LocatedBy ns unset w w') :
    Consistent w'.nodes := by
  have key : ∀ (l l' : List WayNode), List.Forall₂ (fun a b : WayNode => b.ref = a.ref ∧
      (∀ n ∈ ns, n.obj.id = a.ref → b.position = n.position) ∧
      ((∀ n ∈ ns, n.obj.id ≠ a.ref) → b.position = unset)) l l' → Consistent l' := by
    intro l l' h
    induction h with
    | nil => trivial
    | @cons a b l l' h1 hl ih =>
      cases hl with
      | nil => trivial
      | cons h2 hl =>
        refine ⟨?_, ih⟩
        intro he
        obtain ⟨a1, a2, a3⟩ := h1
        obtain ⟨b1, b2, b3⟩ := h2
        rw [a1, b1] at he
        by_cases hx : ∃ n ∈ ns, n.obj.id = a.ref
        · obtain ⟨n, hn, hid⟩ := hx
          rw [a2 n hn hid, b2 n hn (hid.trans he)]
        · have hx' : ∀ n ∈ ns, n.obj.id ≠ a.ref := fun n hn e => hx ⟨n, hn, e⟩
          rw [a3 hx', b3 (fun n hn e => hx' n hn (e.trans he.symm))]
  exact key _ _ h.2

theorem hasPosition_of_located {ns : List Node} {unset : Position} {w w' : Way} (h : LocatedBy ns unset w w')
    (he : EndsInFile ns w) : wayNodesHasPosition w'.nodes = true := by
  obtain ⟨wn, h1, n, hn, hid, hp⟩ := he
  have key : ∀ (l l' : List WayNode), List.Forall₂ (fun a b : WayNode => b.ref = a.ref ∧
      (∀ n ∈ ns, n.obj.id = a.ref → b.position = n.position) ∧
      ((∀ n ∈ ns, n.obj.id ≠ a.ref) → b.position = unset)) l l' → wn ∈ l.getLast? →
      ∃ b ∈ l'.getLast?, b.position = n.position := by
    intro l l' h
    induction h with
    | nil => intro h; cases h
    | @cons a b l l' h2 hl ih =>
      intro hm
      cases hl with
      | nil =>
        have : a = wn := by simpa using hm
        subst this
        exact ⟨b, rfl, h2.2.1 n hn hid⟩
      | cons h3 hl =>
        rw [List.getLast?_cons_cons] at hm
        obtain ⟨b', e1, e2⟩ := ih hm
        exact ⟨b', by rw [List.getLast?_cons_cons]; exact e1, e2⟩
  obtain ⟨b, e1, e2⟩ := key _ _ h.2 h1
  unfold wayNodesHasPosition
  rw [Option.mem_def.1 e1]
  show b.position.defined = true
  rw [e2]
  exact hp

theorem forall₂_mem_right {α β : Type} {R : α → β → Prop} {l : List α} {l' : List β} (h : List.Forall₂ R l l') :
    ∀ b ∈ l', ∃ a ∈ l, R a b := by
  induction h with
  | nil => simp
  | cons h1 _ ih =>
    intro b hb
    rcases List.mem_cons.1 hb with rfl | hb
    · exact ⟨_, List.mem_cons_self, h1⟩
    · obtain ⟨a, ha, hr⟩ := ih b hb
      exact ⟨a, List.mem_cons_of_mem _ ha, hr⟩

/-- The same as `toshape_partial`, with the ways as the handler for coordinates leaves them. -/
theorem toshape_calls {S T : Type} {pos : IdStore S Position} {neg : IdStore T Position}
    {okp okn : List (Nat × Position) → Prop} {up un : Nat → Res Position} {unset : Position}
    (fp : Faithful pos okp up) (fn : Faithful neg okn un) (m : Meta)
    (ns : List Node) (ws : List Way) (rs : List Relation) (hd : (ns.map fun n => n.obj.id).Nodup)
    (hn : ∀ n ∈ ns, NegatableId n.obj.id) (hw : ∀ w ∈ ws, ∀ wn ∈ w.nodes, NegatableId wn.ref)
    (hokp : ∀ j, okp ((posOps (nodeCalls ns)).take j)) (hokn : ∀ j, okn ((negOps (nodeCalls ns)).take j))
    (hu : ∀ w ∈ ws, ∀ wn ∈ w.nodes, (∀ n ∈ ns, n.obj.id ≠ wn.ref) →
      (if 0 ≤ wn.ref then up wn.ref.toNat else un (-wn.ref).toNat) = .ok unset)
    (hend : ∀ w ∈ ws, IsRoad w → EndsInFile ns w)
    (fits : DbfField → DbfValue → Bool) (ident : ShpObject → Nat)
    (hf : ValuesFit fits (ns.map (·.obj.id) ++ ws.map (·.obj.id))) :
    ∃ ws' boxes roads, List.Forall₂ (LocatedBy ns unset) ws ws' ∧
      cfwRun pos neg (pos.empty, neg.empty) (protocol m (fileOf ns ws rs)) = .ok (protocol m (fileOf ns ws' rs)) ∧
      toshapeMain pos neg fits ident (protocol m (fileOf ns ws rs)) = .ok (boxes, roads) ∧
      List.Forall₂ (PostBoxRow ident) (ns.filter fun n => IsPostBox n) (contents boxes) ∧
      List.Forall₂ (RoadRow ident) (ws'.filter fun w => IsRoad w ∧ 2 ≤ (linePoints w).length) (contents roads) := by
  obtain ⟨ws', h1, h2⟩ := coordinates_file fp fn m ns ws rs hd hn hw hokp hokn hu
  obtain ⟨s, n1, n2, n3⟩ := toshapeNew_ok fits
  have hws := forall₂_mem_right h1
  have hmn : ∀ n, Cb.obj (.node n) ∈ protocol m (fileOf ns ws' rs) → n ∈ ns := by
    intro n h
    have : n ∈ (protocol m (fileOf ns ws' rs)).filterMap (fun | .obj (.node n) => some n | _ => none) :=
      List.mem_filterMap.2 ⟨_, h, rfl⟩
    rwa [nodesOf_file] at this
  have hmw : ∀ w, Cb.obj (.way w) ∈ protocol m (fileOf ns ws' rs) → w ∈ ws' := by
    intro n h
    have : n ∈ (protocol m (fileOf ns ws' rs)).filterMap (fun | .obj (.way n) => some n | _ => none) :=
      List.mem_filterMap.2 ⟨_, h, rfl⟩
    rwa [waysOf_file] at this
  obtain ⟨s', a, b, r1, r2, r3, r4, r5⟩ := tablesRun_ok (ident := ident) hf (protocol m (fileOf ns ws' rs))
    (fun n h => List.mem_append_left _ (List.mem_map.2 ⟨n, hmn n h, rfl⟩))
    (fun w h => by
      obtain ⟨w0, k1, k2⟩ := hws w (hmw w h)
      refine ⟨List.mem_append_right _ (List.mem_map.2 ⟨w0, k1, by rw [k2.1]⟩), consistent_of_located k2, fun hr => ?_⟩
      refine hasPosition_of_located k2 (hend w0 k1 ?_)
      unfold IsRoad at hr ⊢
      rw [← k2.1]
      exact hr) s [] [] n2 n3
  rw [nodesOf_file] at r4
  rw [waysOf_file] at r5
  refine ⟨ws', s'.1, s'.2, h1, h2, ?_, ?_, ?_⟩
  · unfold toshapeMain
    rw [n1]
    simp only
    rw [toshapeRun_eq fits ident _ _ _ s h2, r1]
  · rw [r2.inv.same]
    exact r4
  · rw [r3.inv.same]
    exact r5

/-- C87 for a file with nodes, ways and relations in this order and different ids of nodes, if all roads end at
nodes that are in the file: the first shapefile has exactly the post boxes, in the order of the file; the second has
exactly the roads that have at least two different points (with the positions of the nodes in the file). -/
theorem toshape_partial {S T : Type} {pos : IdStore S Position} {neg : IdStore T Position}
    {okp okn : List (Nat × Position) → Prop} {up un : Nat → Res Position} {unset : Position}
    (fp : Faithful pos okp up) (fn : Faithful neg okn un) (m : Meta)
    (ns : List Node) (ws : List Way) (rs : List Relation) (hd : (ns.map fun n => n.obj.id).Nodup)
    (hn : ∀ n ∈ ns, NegatableId n.obj.id) (hw : ∀ w ∈ ws, ∀ wn ∈ w.nodes, NegatableId wn.ref)
    (hokp : ∀ j, okp ((posOps (nodeCalls ns)).take j)) (hokn : ∀ j, okn ((negOps (nodeCalls ns)).take j))
    (hu : ∀ w ∈ ws, ∀ wn ∈ w.nodes, (∀ n ∈ ns, n.obj.id ≠ wn.ref) →
      (if 0 ≤ wn.ref then up wn.ref.toNat else un (-wn.ref).toNat) = .ok unset)
    (hend : ∀ w ∈ ws, IsRoad w → EndsInFile ns w)
    (fits : DbfField → DbfValue → Bool) (ident : ShpObject → Nat)
    (hf : ValuesFit fits (ns.map (·.obj.id) ++ ws.map (·.obj.id))) :
    ∃ ws' boxes roads, List.Forall₂ (LocatedBy ns unset) ws ws' ∧
      toshapeMain pos neg fits ident (protocol m (fileOf ns ws rs)) = .ok (boxes, roads) ∧
      List.Forall₂ (PostBoxRow ident) (ns.filter fun n => IsPostBox n) (contents boxes) ∧
      List.Forall₂ (RoadRow ident) (ws'.filter fun w => IsRoad w ∧ 2 ≤ (linePoints w).length) (contents roads) := by
  obtain ⟨ws', boxes, roads, h1, -, h2⟩ := toshape_calls fp fn m ns ws rs hd hn hw hokp hokn hu hend fits ident hf
  exact ⟨ws', boxes, roads, h1, h2⟩

/-- An unused file mapping. -/
theorem mmapFile_unused {V : Type} (sz inc : Nat) (os : Nat → Bool) (init : Backing V) (hz : 0 < sz) (hn0 : 0 < inc)
    (hi : sz < 2 ^ 64) : Faithful (mmapFile V sz inc os init) (fun ops => ops = [])
      (fun id => if id < 1 then .ok (init.cell id) else .error .ub) := by
  intro ops h
  subst h
  obtain ⟨s, h1, h2, h3, -⟩ := mmapFile_faithful sz inc os init hz hn0 hi [] (by intro o ho; cases ho)
  exact ⟨s, h1, h2, fun id _ hn => h3 id hn⟩

/-- The storages the program uses: a table for ids that are not negative, and a mapped temporary file for negative
ids. (examples/osmium_toshape.cpp 21-23) -/
def toshapePos : IdStore (Table Position) Position := sparseTable Position Position.undef 10000
/-- (examples/osmium_toshape.cpp 21-23) -/
def toshapeNeg (os : Nat → Bool) : IdStore (FileMap Position) Position :=
  mmapFile Position 8 sizeIncrement os ⟨0, fun _ => ⟨0, 0⟩⟩

/-- C87 for the storages that the program uses, if there are no negative ids. -/
theorem toshape_stores_partial (os : Nat → Bool) (m : Meta)
    (ns : List Node) (ws : List Way) (rs : List Relation) (hd : (ns.map fun n => n.obj.id).Nodup)
    (hn : ∀ n ∈ ns, 0 ≤ n.obj.id ∧ n.obj.id ≤ 9223372036854775807)
    (hw : ∀ w ∈ ws, ∀ wn ∈ w.nodes, 0 ≤ wn.ref ∧ wn.ref ≤ 9223372036854775807)
    (hend : ∀ w ∈ ws, IsRoad w → EndsInFile ns w)
    (fits : DbfField → DbfValue → Bool) (ident : ShpObject → Nat)
    (hf : ValuesFit fits (ns.map (·.obj.id) ++ ws.map (·.obj.id))) :
    ∃ ws' boxes roads, List.Forall₂ (LocatedBy ns Position.undef) ws ws' ∧
      toshapeMain toshapePos (toshapeNeg os) fits ident (protocol m (fileOf ns ws rs)) = .ok (boxes, roads) ∧
      List.Forall₂ (PostBoxRow ident) (ns.filter fun n => IsPostBox n) (contents boxes) ∧
      List.Forall₂ (RoadRow ident) (ws'.filter fun w => IsRoad w ∧ 2 ≤ (linePoints w).length) (contents roads) := by
  refine toshape_partial (sparseTable_faithful Position Position.undef 10000 (by omega))
    (mmapFile_unused 8 sizeIncrement os ⟨0, fun _ => ⟨0, 0⟩⟩ (by omega) (by decide) (by omega)) m ns ws rs hd
    (fun n h => ⟨by have := hn n h; omega, (hn n h).2⟩) (fun w h wn h' => ⟨by have := hw w h wn h'; omega, (hw w h wn h').2⟩)
    ?_ ?_ ?_ hend fits ident hf
  · intro j o ho
    obtain ⟨n, h1, h2, h3⟩ := mem_posOps.1 (List.mem_of_mem_take ho)
    obtain ⟨n', h4, h5⟩ := List.mem_map.1 h1
    cases h5
    have := hn n h4
    rw [h3]
    simp only
    omega
  · intro j
    rw [List.eq_nil_iff_forall_not_mem]
    intro o ho
    obtain ⟨n, h1, h2, -⟩ := mem_negOps.1 (List.mem_of_mem_take ho)
    obtain ⟨n', h4, h5⟩ := List.mem_map.1 h1
    cases h5
    have := hn n h4
    omega
  · intro w h wn h' _
    rw [if_pos (hw w h wn h').1]

/-! ### Disagreements -/

theorem no_position_of_located {ns : List Node} {unset : Position} {w w' : Way} (h : LocatedBy ns unset w w')
    (hu : unset.defined = false) (he : ¬ EndsInFile ns w) : wayNodesHasPosition w'.nodes = false := by
  have key : ∀ (l l' : List WayNode), List.Forall₂ (fun a b : WayNode => b.ref = a.ref ∧
      (∀ n ∈ ns, n.obj.id = a.ref → b.position = n.position) ∧
      ((∀ n ∈ ns, n.obj.id ≠ a.ref) → b.position = unset)) l l' → ∀ b ∈ l'.getLast?, b.position.defined = true →
      ∃ wn ∈ l.getLast?, ∃ n ∈ ns, n.obj.id = wn.ref ∧ n.position.defined = true := by
    intro l l' h
    induction h with
    | nil => intro b h; cases h
    | @cons a b l l' h2 hl ih =>
      intro b' hm hd
      cases hl with
      | nil =>
        have : b = b' := by simpa using hm
        subst this
        refine ⟨a, rfl, ?_⟩
        by_cases hx : ∃ n ∈ ns, n.obj.id = a.ref
        · obtain ⟨n, hn, hid⟩ := hx
          exact ⟨n, hn, hid, by rw [← h2.2.1 n hn hid]; exact hd⟩
        · rw [h2.2.2 (fun n hn e => hx ⟨n, hn, e⟩), hu] at hd
          cases hd
      | cons h3 hl =>
        rw [List.getLast?_cons_cons] at hm
        obtain ⟨wn, e1, e2⟩ := ih b' hm hd
        exact ⟨wn, by rw [List.getLast?_cons_cons]; exact e1, e2⟩
  unfold wayNodesHasPosition
  cases hl : w'.nodes.getLast? with
  | none => rfl
  | some b =>
    show b.position.defined = false
    by_contra hd
    exact he (key _ _ h.2 b hl (by simpa using hd))

theorem tablesRun_bad {fits : DbfField → DbfValue → Bool} {ident : ShpObject → Nat} {ids : List Int}
    (hf : ValuesFit fits ids) (calls : List Cb)
    (hn : ∀ n, Cb.obj (.node n) ∈ calls → n.obj.id ∈ ids)
    (hw : ∀ w, Cb.obj (.way w) ∈ calls → w.obj.id ∈ ids ∧ Consistent w.nodes)
    (hbad : ∃ w, Cb.obj (.way w) ∈ calls ∧ IsRoad w ∧ wayNodesHasPosition w.nodes = false)
    (s : ShpTable × ShpTable) (a b : List (ShpShape × DbfRow)) (h1 : Filled boxFields .point a s.1)
    (h2 : Filled roadFields .arc b s.2) :
    tablesRun fits ident s calls =
      .error (.exn "node coordinates not available for building way geometry") := by
  induction calls generalizing s a b with
  | nil => obtain ⟨w, h, -⟩ := hbad; cases h
  | cons c calls ih =>
    have hn' := fun n h => hn n (List.mem_cons_of_mem _ h)
    have hw' := fun w h => hw w (List.mem_cons_of_mem _ h)
    rw [tablesRun]
    by_cases hc : ∃ w, c = Cb.obj (.way w) ∧ IsRoad w ∧ wayNodesHasPosition w.nodes = false
    · obtain ⟨w, rfl, hr, hp⟩ := hc
      have e : toshapeTables fits ident s (.obj (.way w)) =
          .error (.exn "node coordinates not available for building way geometry") := by
        rw [toshapeTables, toshapeWay]
        unfold IsRoad at hr
        obtain ⟨v, hv⟩ := Option.isSome_iff_exists.1 hr
        rw [hv]
        simp only
        rw [(shp_points_partial (LineString.new w.nodes false w.obj.id) (hw w List.mem_cons_self).2).1 hp]
        rfl
      rw [e]
    · have hb' : ∃ w, Cb.obj (.way w) ∈ calls ∧ IsRoad w ∧ wayNodesHasPosition w.nodes = false := by
        obtain ⟨w, h, h', h''⟩ := hbad
        rcases List.mem_cons.1 h with rfl | h
        · exact absurd ⟨w, rfl, h', h''⟩ hc
        · exact ⟨w, h, h', h''⟩
      have ih := ih hn' hw' hb'
      cases c with
      | obj o =>
        cases o with
        | node n =>
          obtain ⟨t', r1, r2, r3⟩ := toshapeNode_ok (ident := ident) hf h1 n (hn n (by simp))
          have e : toshapeTables fits ident s (.obj (.node n)) = .ok (t', s.2) := by
            rw [toshapeTables, r1]; rfl
          rw [e]
          by_cases hb : IsPostBox n
          · obtain ⟨r, q1, q2⟩ := r3 hb
            exact ih (t', s.2) _ _ q2 h2
          · exact ih (t', s.2) _ _ (r2 hb) h2
        | way w =>
          obtain ⟨k1, k2⟩ := hw w (by simp)
          obtain ⟨t', r1, r2, r3⟩ := toshapeWay_ok (ident := ident) hf h2 w k1 k2 (fun hr => by
            by_contra hp
            exact hc ⟨w, rfl, hr, by simpa using hp⟩)
          have e : toshapeTables fits ident s (.obj (.way w)) = .ok (s.1, t') := by
            rw [toshapeTables, r1]; rfl
          rw [e]
          by_cases hb : IsRoad w ∧ 2 ≤ (linePoints w).length
          · obtain ⟨r, q1, q2⟩ := r3 hb
            exact ih (s.1, t') _ _ h1 q2
          · exact ih (s.1, t') _ _ h1 (r2 hb)
        | relation r =>
          rw [show toshapeTables fits ident s (.obj (.relation r)) = .ok s from rfl]
          exact ih s a b h1 h2
      | init m =>
        rw [show toshapeTables fits ident s (.init m) = .ok s from rfl]
        exact ih s a b h1 h2
      | before t =>
        rw [show toshapeTables fits ident s (.before t) = .ok s from rfl]
        exact ih s a b h1 h2
      | after t =>
        rw [show toshapeTables fits ident s (.after t) = .ok s from rfl]
        exact ih s a b h1 h2
      | final =>
        rw [show toshapeTables fits ident s .final = .ok s from rfl]
        exact ih s a b h1 h2

/-- Disagreement with C87: one road of which the last node is not in the file (as in every extract) or that has no
nodes, and the whole program ends with an exception, as only `IllegalGeometry` is caught. -/
theorem toshape_missing_node {S T : Type} {pos : IdStore S Position} {neg : IdStore T Position}
    {okp okn : List (Nat × Position) → Prop} {up un : Nat → Res Position} {unset : Position}
    (fp : Faithful pos okp up) (fn : Faithful neg okn un) (m : Meta)
    (ns : List Node) (ws : List Way) (rs : List Relation) (hd : (ns.map fun n => n.obj.id).Nodup)
    (hn : ∀ n ∈ ns, NegatableId n.obj.id) (hw : ∀ w ∈ ws, ∀ wn ∈ w.nodes, NegatableId wn.ref)
    (hokp : ∀ j, okp ((posOps (nodeCalls ns)).take j)) (hokn : ∀ j, okn ((negOps (nodeCalls ns)).take j))
    (hu : ∀ w ∈ ws, ∀ wn ∈ w.nodes, (∀ n ∈ ns, n.obj.id ≠ wn.ref) →
      (if 0 ≤ wn.ref then up wn.ref.toNat else un (-wn.ref).toNat) = .ok unset)
    (hundef : unset.defined = false) (hbad : ∃ w ∈ ws, IsRoad w ∧ ¬ EndsInFile ns w)
    (fits : DbfField → DbfValue → Bool) (ident : ShpObject → Nat)
    (hf : ValuesFit fits (ns.map (·.obj.id) ++ ws.map (·.obj.id))) :
    toshapeMain pos neg fits ident (protocol m (fileOf ns ws rs)) =
      .error (.exn "node coordinates not available for building way geometry") := by
  obtain ⟨ws', h1, h2⟩ := coordinates_file fp fn m ns ws rs hd hn hw hokp hokn hu
  obtain ⟨s, n1, n2, n3⟩ := toshapeNew_ok fits
  have hws := forall₂_mem_right h1
  have hmn : ∀ n, Cb.obj (.node n) ∈ protocol m (fileOf ns ws' rs) → n ∈ ns := by
    intro n h
    have : n ∈ (protocol m (fileOf ns ws' rs)).filterMap (fun | .obj (.node n) => some n | _ => none) :=
      List.mem_filterMap.2 ⟨_, h, rfl⟩
    rwa [nodesOf_file] at this
  have hmw : ∀ w, Cb.obj (.way w) ∈ protocol m (fileOf ns ws' rs) ↔ w ∈ ws' := by
    intro n
    have : Cb.obj (.way n) ∈ protocol m (fileOf ns ws' rs) ↔
        n ∈ (protocol m (fileOf ns ws' rs)).filterMap (fun | .obj (.way n) => some n | _ => none) := by
      rw [List.mem_filterMap]
      constructor
      · exact fun h => ⟨_, h, rfl⟩
      · rintro ⟨c, hc, e⟩
        split at e
        · cases e; exact hc
        · cases e
    rw [this, waysOf_file]
  obtain ⟨w, b1, b2, b3⟩ := hbad
  obtain ⟨w', b4, b5⟩ : ∃ w' ∈ ws', LocatedBy ns unset w w' := by
    have := forall₂_mem_right h1.flip
    exact this w b1
  unfold toshapeMain
  rw [n1]
  simp only
  rw [toshapeRun_eq fits ident _ _ _ s h2]
  refine tablesRun_bad (ident := ident) hf (protocol m (fileOf ns ws' rs))
    (fun n h => List.mem_append_left _ (List.mem_map.2 ⟨n, hmn n h, rfl⟩))
    (fun w h => by
      obtain ⟨w0, k1, k2⟩ := hws w ((hmw w).1 h)
      exact ⟨List.mem_append_right _ (List.mem_map.2 ⟨w0, k1, by rw [k2.1]⟩), consistent_of_located k2⟩)
    ⟨w', (hmw w').2 b4, ?_, no_position_of_located b5 hundef b3⟩ s [] [] n2 n3
  unfold IsRoad at b2 ⊢
  rw [b5.1]
  exact b2

/-! ### Examples -/

/-- (example) -/
def shapeNode (id x y : Int) (tags : List Tag) : Node := ⟨{ Obj.new with id := id, tags := tags }, ⟨x, y⟩⟩
/-- (example) -/
def shapeNodes : List Node :=
  [shapeNode 1 10000000 20000000 [⟨"amenity", "post_box"⟩, ⟨"operator", "Deutsche Post"⟩],
   shapeNode 2 30000000 40000000 [⟨"amenity", "bench"⟩], shapeNode 3 50000000 60000000 [⟨"amenity", "post_box"⟩]]
/-- (example) -/
def shapeWay (id : Int) (refs : List Int) : Way :=
  ⟨{ Obj.new with id := id, tags := [⟨"highway", "track"⟩] }, refs.map fun r => ⟨r, Position.undef⟩⟩

/-- The example meets the hypotheses of the theorem: two post boxes; a road, a way with one point and a way through
a node that is not in the file. -/
example (os : Nat → Bool) (m : Meta) (ident : ShpObject → Nat) :
    ∃ boxes roads ws', toshapeMain toshapePos (toshapeNeg os) (fun _ _ => true) ident
      (protocol m (fileOf shapeNodes [shapeWay 7 [1, 2, 3], shapeWay 8 [2, 2], shapeWay 9 [1, 5, 3]] [])) = .ok (boxes, roads) ∧
      List.Forall₂ (LocatedBy shapeNodes Position.undef) [shapeWay 7 [1, 2, 3], shapeWay 8 [2, 2], shapeWay 9 [1, 5, 3]] ws' ∧
      List.Forall₂ (PostBoxRow ident) [shapeNodes[0], shapeNodes[2]] (contents boxes) ∧
      List.Forall₂ (RoadRow ident) (ws'.filter fun w => IsRoad w ∧ 2 ≤ (linePoints w).length) (contents roads) := by
  obtain ⟨ws', boxes, roads, h1, h2, h3, h4⟩ := toshape_stores_partial os m shapeNodes
    [shapeWay 7 [1, 2, 3], shapeWay 8 [2, 2], shapeWay 9 [1, 5, 3]] [] (by decide +kernel) (by decide +kernel)
    (by decide +kernel) (by
      intro w hw _
      simp only [List.mem_cons, List.not_mem_nil, or_false] at hw
      rcases hw with rfl | rfl | rfl
      · exact ⟨⟨3, Position.undef⟩, by decide +kernel, shapeNodes[2], by decide +kernel, by decide +kernel, by decide +kernel⟩
      · exact ⟨⟨2, Position.undef⟩, by decide +kernel, shapeNodes[1], by decide +kernel, by decide +kernel, by decide +kernel⟩
      · exact ⟨⟨3, Position.undef⟩, by decide +kernel, shapeNodes[2], by decide +kernel, by decide +kernel, by decide +kernel⟩)
    (fun _ _ => true) ident ⟨by decide +kernel, fun _ _ => ⟨rfl, rfl⟩⟩
  exact ⟨boxes, roads, ws', h2, h1, h3, h4⟩

/-- Disagreement with C87: a road through a node that is not in the file (not its last one) has a point in its shape
for it: at 214.7483647 degrees of longitude and latitude, which is nowhere. -/
theorem toshape_hole (os : Nat → Bool) (m : Meta) (ident : ShpObject → Nat) :
    ∃ boxes roads row, toshapeMain toshapePos (toshapeNeg os) (fun _ _ => true) ident
      (protocol m (fileOf shapeNodes [shapeWay 9 [1, 5, 3]] [])) = .ok (boxes, roads) ∧
      contents roads = [(⟨.arc, 1, 3, ident ⟨[0], [1, fixToDouble 2147483647, 5], [2, fixToDouble 2147483647, 6]⟩⟩, row)] ∧
      214 < fixToDouble 2147483647 := by
  obtain ⟨ws', boxes, roads, h1, h2, h3, h4⟩ := toshape_stores_partial os m shapeNodes
    [shapeWay 9 [1, 5, 3]] [] (by decide +kernel) (by decide +kernel)
    (by decide +kernel) (by
      intro w hw _
      simp only [List.mem_cons, List.not_mem_nil, or_false] at hw
      subst hw
      exact ⟨⟨3, Position.undef⟩, by decide +kernel, shapeNodes[2], by decide +kernel, by decide +kernel, by decide +kernel⟩)
    (fun _ _ => true) ident ⟨by decide +kernel, fun _ _ => ⟨rfl, rfl⟩⟩
  cases h1 with
  | @cons _ w' _ _ hl hnil =>
  cases hnil
  obtain ⟨obj', nodes'⟩ := w'
  obtain ⟨e1, e2⟩ := hl
  have e1 : obj' = (shapeWay 9 [1, 5, 3]).obj := e1
  subst e1
  have f1 : List.Forall₂ _ [(⟨1, Position.undef⟩ : WayNode), ⟨5, Position.undef⟩, ⟨3, Position.undef⟩] nodes' := e2
  clear e2
  cases f1 with
  | @cons _ b1 _ _ g1 f2 =>
  cases f2 with
  | @cons _ b2 _ _ g2 f3 =>
  cases f3 with
  | @cons _ b3 _ _ g3 f4 =>
  cases f4
  have p1 := g1.2.1 shapeNodes[0] (by decide +kernel) (by decide +kernel)
  have p2 := g2.2.2 (by decide +kernel)
  have p3 := g3.2.1 shapeNodes[2] (by decide +kernel) (by decide +kernel)
  have el : linePoints ⟨(shapeWay 9 [1, 5, 3]).obj, [b1, b2, b3]⟩ =
      [shapeNodes[0].position, Position.undef, shapeNodes[2].position] := by
    unfold linePoints
    simp only [List.map_cons, List.map_nil, p1, p2, p3]
    decide +kernel
  have ef : ([(⟨(shapeWay 9 [1, 5, 3]).obj, [b1, b2, b3]⟩ : Way)].filter fun w => IsRoad w ∧ 2 ≤ (linePoints w).length) =
      [⟨(shapeWay 9 [1, 5, 3]).obj, [b1, b2, b3]⟩] := by
    rw [List.filter_cons_of_pos]
    · rfl
    · rw [decide_eq_true_iff]
      refine ⟨?_, by rw [el]; exact Nat.le_succ 2⟩
      show (TagList.getValueByKey (shapeWay 9 [1, 5, 3]).obj.tags "highway").isSome = true
      decide +kernel
  rw [ef] at h4
  generalize hc : contents roads = c at h4
  cases h4 with
  | @cons _ r _ _ q1 q2 =>
  cases q2
  obtain ⟨r1, r2⟩ := r
  have m1 : [shapeNodes[0].position, Position.undef, shapeNodes[2].position].map Position.lon =
      [1, fixToDouble 2147483647, 5] := by decide +kernel
  have m2 : [shapeNodes[0].position, Position.undef, shapeNodes[2].position].map Position.lat =
      [2, fixToDouble 2147483647, 6] := by decide +kernel
  have q := q1.1
  rw [el, m1, m2] at q
  simp only [List.length_cons, List.length_nil] at q
  exact ⟨boxes, roads, r2, h2, by rw [hc, q], by decide +kernel⟩

/-- Disagreement with C87: a way (of any kind) with a negative node id that is not in the file reads past the end of
the mapped file. -/
theorem toshape_negative (m : Meta) :
    toshapeMain toshapePos (toshapeNeg fun _ => true) (fun _ _ => true) (fun _ => 0)
      (protocol m (fileOf [] [shapeWay 9 [-5]] [])) = .error .ub := by
  rw [protocol_fileOf]
  have e : cfwStep toshapePos (toshapeNeg fun _ => true) (toshapePos.empty, (toshapeNeg fun _ => true).empty)
      (.obj (.way (shapeWay 9 [-5]))) = .error .ub := by
    have h : failure (cfwStep toshapePos (toshapeNeg fun _ => true)
      (toshapePos.empty, (toshapeNeg fun _ => true).empty) (.obj (.way (shapeWay 9 [-5])))) = some .ub := by
      decide +kernel
    cases hc : cfwStep toshapePos (toshapeNeg fun _ => true)
      (toshapePos.empty, (toshapeNeg fun _ => true).empty) (.obj (.way (shapeWay 9 [-5]))) with
    | ok _ => rw [hc] at h; cases h
    | error f => rw [hc] at h; cases h; rfl
  obtain ⟨s, hs, -⟩ := toshapeNew_ok (fun _ _ => true)
  unfold toshapeMain
  rw [hs]
  simp only [List.map_nil, runCalls, List.map_cons, List.nil_append, List.cons_append, OsmObj.type]
  rw [toshapeRun, show cfwStep toshapePos (toshapeNeg fun _ => true) _ (.init m) = .ok (_, .init m) from rfl]
  simp only [toshapeTables]
  rw [toshapeRun, show cfwStep toshapePos (toshapeNeg fun _ => true) _ (.before .way) = .ok (_, .before .way) from rfl]
  simp only [toshapeTables]
  rw [toshapeRun, e]

end Osmium

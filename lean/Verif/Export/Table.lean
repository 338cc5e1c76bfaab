import Verif.Export.SizeProps
import Verif.Common.Text
/-
C69: fields and attributes of shapefiles (export/shapefile.hpp), as a table of values in the .dbf file
beside the shapes in the .shp file.
-/
namespace Osmium

/-- The values `add_attribute` takes (export/shapefile.hpp 220-260). -/
inductive DbfValue where
  | bool (b : Bool)
  | int (i : Int)
  | double (q : Rat)
  | string (s : List UInt8)
  | null
deriving DecidableEq, Repr

/-- The values of one record: the writes to its fields, in order. (export/shapefile.hpp 220-279) -/
abbrev DbfRow := List (Nat × DbfValue)

/-- `DBFWrite...Attribute` (Shapelib, dbfopen.c `DBFWriteAttribute`) for record `entity` and field
`field`: false (here an exception, export/shapefile.hpp 222-224 and so on) if there is no such field,
if the record is neither an existing one nor the next one, or if the value does not fit
(`fits`, any function); a new record is appended. -/
def dbfWrite (fits : DbfField → DbfValue → Bool) (fields : List DbfField) (rows : List DbfRow)
    (entity field : Nat) (v : DbfValue) : Res (List DbfRow) :=
  match fields[field]? with
  | none => .error (.exn "Can't add value to field")
  | some f =>
    if entity > rows.length ∨ fits f v = false then .error (.exn "Can't add value to field")
    else if entity = rows.length then .ok (rows ++ [[(field, v)]])
    else .ok (rows.modify entity (· ++ [(field, v)]))

/-- A shapefile with the contents of the .dbf files: `closed` the records of the files closed already,
`rows` those of the open one; `current` is `m_current_shape`. (export/shapefile.hpp 305-335 and
the calls of Shapelib 220-279, 344-390) -/
structure ShpTable where
  base : ShapefileObj
  current : Nat
  rows : List DbfRow
  closed : List (List DbfRow)

/-- export/shapefile.hpp 291-303 constructor. -/
def ShpTable.new (type : ShpType) : ShpTable := ⟨ShapefileObj.new type, 0, [], []⟩

/-- What a program does with a shapefile. (the public methods of export/shapefile.hpp 105-285) -/
inductive ShpOp where
  | field (name : String) (type : String) (width decimals : Int)
  | geometry (shape : ShpShape)
  | attr (field : Nat) (v : DbfValue)

/-- One operation: export/shapefile.hpp 153-177 and 124-136 `add_field`; 198-218 `add_geometry`
(`SHPWriteObject` returns the number of the shape in the file); 220-260 `add_attribute`. -/
def ShpTable.step (fits : DbfField → DbfValue → Bool) (t : ShpTable) : ShpOp → Res ShpTable
  | .field name type width decimals => do
    let f ← DbfField.ofText name type width decimals
    return { t with base := ← t.base.addField f }
  | .geometry shape => do
    let b ← t.base.addGeometry shape
    let cur := b.cur.shapes.length - 1
    if b.sequenceNumber = t.base.sequenceNumber then
      return { t with base := b, current := cur }
    else
      return ⟨b, cur, [], t.closed ++ [t.rows]⟩
  | .attr field v => do
    return { t with rows := ← dbfWrite fits t.base.fields t.rows t.current field v }

/-- A sequence of operations without exception. (part of a program using the library, no
counterpart in /repo) -/
def ShpTable.run (fits : DbfField → DbfValue → Bool) : ShpTable → List ShpOp → Res ShpTable
  | t, [] => .ok t
  | t, op :: ops => do (← t.step fits op).run fits ops

/-- export/shapefile.hpp 340-344: the name of the file with the given sequence number, without
suffix. -/
def shpFileName (base : String) (seq : Nat) : String :=
  if seq = 0 then base else base ++ "_" ++ String.ofList (Text.natDec seq)

namespace Spec

/-- What the program has told us about each shape: the shape and the values given after it was added
and before the next one. (specification, no counterpart in /repo) -/
def toldShapes : List (ShpShape × DbfRow) → List ShpOp → List (ShpShape × DbfRow)
  | acc, [] => acc
  | acc, .field _ _ _ _ :: ops => toldShapes acc ops
  | acc, .geometry s :: ops => toldShapes (acc ++ [(s, [])]) ops
  | acc, .attr k v :: ops => toldShapes (acc.modify (acc.length - 1) (fun p => (p.1, p.2 ++ [(k, v)]))) ops

/-- The program adds a geometry before it adds attributes, as the documentation says. (specification, no counterpart
in /repo) -/
def GeometryFirst (ops : List ShpOp) : Prop :=
  ∀ pre k v post, ops = pre ++ .attr k v :: post → ∃ s, ShpOp.geometry s ∈ pre

/-- The shapes of a file beside its records; shapes at the end may have no record yet. (specification, no counterpart
in /repo) -/
def joined (shapes : List ShpShape) (rows : List DbfRow) : List (ShpShape × DbfRow) :=
  shapes.zip (rows ++ List.replicate (shapes.length - rows.length) [])

/-- All shapes with their records, from all files. (specification, no counterpart in /repo) -/
def contents (t : ShpTable) : List (ShpShape × DbfRow) :=
  (List.zipWith (fun f r => joined f.shapes r) t.base.files t.closed).flatten ++
    joined t.base.cur.shapes t.rows

end Spec
open Spec

/-! ### Fields -/

/-- A field is accepted exactly if its name has 1 to 11 bytes, the width is at most 255 and the type is
known; it then has the name, type, width and decimals asked for (width 1 for "bool", no decimals except for
"double"). -/
theorem field_accepted_iff (name type : String) (width decimals : Int) (f : DbfField) :
    DbfField.ofText name type width decimals = .ok f ↔
      1 ≤ name.utf8ByteSize ∧ name.utf8ByteSize ≤ 11 ∧ f.name = name ∧
      ((type = "string" ∧ f.type = .string ∧ f.width = width ∧ f.decimals = 0 ∧ width ≤ 255) ∨
       (type = "integer" ∧ f.type = .integer ∧ f.width = width ∧ f.decimals = 0 ∧ width ≤ 255) ∨
       (type = "double" ∧ f.type = .double ∧ f.width = width ∧ f.decimals = decimals ∧ width ≤ 255) ∨
       (type = "bool" ∧ f.type = .logical ∧ f.width = 1 ∧ f.decimals = 0)) := by
  have hn : name = "" ↔ name.utf8ByteSize = 0 := by
    constructor
    · rintro rfl; rfl
    · intro h; exact String.utf8ByteSize_eq_zero_iff.1 h
  have key : ∀ (t : DbfType) (w d : Int), DbfField.new name t w d = .ok f ↔
      1 ≤ name.utf8ByteSize ∧ name.utf8ByteSize ≤ 11 ∧ w ≤ 255 ∧
      f.name = name ∧ f.type = t ∧ f.width = w ∧ f.decimals = d := by
    intro t w d
    unfold DbfField.new
    simp only [hn]
    split
    · constructor
      · intro h; cases h
      · rintro ⟨h1, h2, _⟩; omega
    · split
      · constructor
        · intro h; cases h
        · rintro ⟨_, _, h, _⟩; omega
      · constructor
        · intro h; cases h; refine ⟨?_, ?_, ?_, rfl, rfl, rfl, rfl⟩ <;> omega
        · rintro ⟨_, _, _, h1, h2, h3, h4⟩
          cases f; simp only at h1 h2 h3 h4; subst h1 h2 h3 h4; rfl
  unfold DbfField.ofText
  split
  · rename_i h; subst h; rw [key]; simp <;> grind
  · split
    · rename_i h; subst h; rw [key]; simp <;> grind
    · split
      · rename_i h; subst h; rw [key]; simp <;> grind
      · split
        · rename_i h; subst h; rw [key]; simp <;> grind
        · constructor
          · intro h; cases h
          · rintro ⟨_, _, _, h | h | h | h⟩ <;> simp_all

/-! ### Records -/

/-- What `add_geometry` does with the files. -/
theorem addGeometry_cases {s b : ShapefileObj} {shape : ShpShape} (h : s.addGeometry shape = .ok b) :
    b.fields = s.fields ∧ shape.type = s.type ∧
    ((b.sequenceNumber = s.sequenceNumber ∧ b.files = s.files ∧ b.cur.shapes = s.cur.shapes ++ [shape]) ∨
     (b.sequenceNumber = s.sequenceNumber + 1 ∧ b.files = s.files ++ [s.cur] ∧ b.cur.shapes = [shape])) := by
  unfold ShapefileObj.addGeometry at h
  split at h
  · cases h
  · rename_i ht
    simp only [Except.ok.injEq] at h
    subst h
    split
    · exact ⟨rfl, Decidable.of_not_not ht, Or.inr ⟨rfl, rfl, rfl⟩⟩
    · exact ⟨rfl, Decidable.of_not_not ht, Or.inl ⟨rfl, rfl, rfl⟩⟩

theorem addField_files {s b : ShapefileObj} {f : DbfField} (h : s.addField f = .ok b) :
    b.sequenceNumber = s.sequenceNumber ∧ b.files = s.files ∧ b.cur.shapes = s.cur.shapes ∧
      b.fields = s.fields ++ [f] := by
  unfold ShapefileObj.addField at h
  split at h
  · cases h; exact ⟨rfl, rfl, rfl, rfl⟩
  · cases h

theorem joined_snoc (sh : List ShpShape) (rows : List DbfRow) (s : ShpShape) (h : rows.length ≤ sh.length) :
    joined (sh ++ [s]) rows = joined sh rows ++ [(s, [])] := by
  unfold joined
  have e : rows ++ List.replicate ((sh ++ [s]).length - rows.length) ([] : DbfRow) =
      (rows ++ List.replicate (sh.length - rows.length) []) ++ [[]] := by
    rw [List.append_assoc, ← List.replicate_succ']
    congr 2
    simp only [List.length_append, List.length_singleton]
    omega
  rw [e, List.zip_append (by simp; omega)]
  rfl

theorem modify_last {α : Type} (l : List α) (x : α) (f : α → α) (n : Nat) (hn : n = l.length) :
    (l ++ [x]).modify n f = l ++ [f x] := by
  subst hn
  induction l with
  | nil => rfl
  | cons a l ih => simpa using ih

/-- The state of the table and what the program has told agree. (helper for statements and
proofs, no counterpart in /repo) -/
structure TableInv (t : ShpTable) (told : List (ShpShape × DbfRow)) : Prop where
  closed : t.closed.length = t.base.files.length
  rows : t.rows.length ≤ t.base.cur.shapes.length
  current : t.base.cur.shapes ≠ [] → t.current + 1 = t.base.cur.shapes.length
  fresh : t.base.cur.shapes = [] → told = []
  same : contents t = told

theorem tableInv_geometry {fits : DbfField → DbfValue → Bool} {t t' : ShpTable}
    {told : List (ShpShape × DbfRow)} {s : ShpShape} (h : TableInv t told)
    (hs : t.step fits (.geometry s) = .ok t') : TableInv t' (told ++ [(s, [])]) := by
  simp only [ShpTable.step, bind, Except.bind] at hs
  cases hb : t.base.addGeometry s with
  | error e => rw [hb] at hs; cases hs
  | ok b =>
    rw [hb] at hs
    simp only at hs
    obtain ⟨_, _, h1 | h1⟩ := addGeometry_cases hb
    · obtain ⟨e1, e2, e3⟩ := h1
      rw [if_pos e1] at hs
      cases hs
      refine ⟨by simp [e2, h.closed], by simp only [e3, List.length_append]; exact Nat.le_add_right_of_le h.rows,
        by intro _; simp [e3], by intro hn; simp [e3] at hn, ?_⟩
      rw [← h.same]
      simp only [contents, e2, e3]
      rw [joined_snoc _ _ _ h.rows, List.append_assoc]
    · obtain ⟨e1, e2, e3⟩ := h1
      rw [if_neg (by omega)] at hs
      cases hs
      refine ⟨by simp [e2, h.closed], by simp, by intro _; simp [e3],
        by intro hn; simp [e3] at hn, ?_⟩
      rw [← h.same]
      simp only [contents, e2, e3]
      rw [List.zipWith_append h.closed.symm]
      simp [joined]

theorem tableInv_attribute {fits : DbfField → DbfValue → Bool} {t t' : ShpTable}
    {told : List (ShpShape × DbfRow)} {k : Nat} {v : DbfValue} (h : TableInv t told) (hne : told ≠ [])
    (hs : t.step fits (.attr k v) = .ok t') :
    TableInv t' (told.modify (told.length - 1) (fun p => (p.1, p.2 ++ [(k, v)]))) := by
  have hsh : t.base.cur.shapes ≠ [] := fun e => hne (h.fresh e)
  have hcur := h.current hsh
  obtain ⟨sh, s, hss⟩ : ∃ sh s, t.base.cur.shapes = sh ++ [s] :=
    ⟨_, _, (List.dropLast_concat_getLast hsh).symm⟩
  have hlen : t.current = sh.length := by rw [hss] at hcur; simpa using hcur
  have hrow : t.rows.length ≤ sh.length + 1 := by have := h.rows; rw [hss] at this; simpa using this
  simp only [ShpTable.step, bind, Except.bind, dbfWrite] at hs
  cases hf : t.base.fields[k]? with
  | none => rw [hf] at hs; cases hs
  | some f =>
    rw [hf] at hs
    simp only at hs
    by_cases hc : t.current > t.rows.length ∨ fits f v = false
    · rw [if_pos hc] at hs; cases hs
    · rw [if_neg hc] at hs
      have hc1 : t.current ≤ t.rows.length := by
        rcases Nat.lt_or_ge t.rows.length t.current with h' | h'
        · exact absurd (Or.inl h') hc
        · exact h'
      -- the records before and the last one, before and after
      have key : ∃ r0 r, r0.length = sh.length ∧ joined (sh ++ [s]) t.rows = sh.zip r0 ++ [(s, r)] ∧
          t'.base = t.base ∧ t'.current = t.current ∧ t'.closed = t.closed ∧
          t'.rows.length = sh.length + 1 ∧ joined (sh ++ [s]) t'.rows = sh.zip r0 ++ [(s, r ++ [(k, v)])] := by
        by_cases he : t.current = t.rows.length
        · rw [if_pos he] at hs
          simp only [pure, Except.pure, Except.ok.injEq] at hs
          subst hs
          refine ⟨t.rows, [], by omega, ?_, rfl, rfl, rfl, by simp; omega, ?_⟩
          · unfold joined
            have : (sh ++ [s]).length - t.rows.length = 1 := by simp; omega
            rw [this, List.zip_append (by omega)]
            rfl
          · unfold joined
            have : (sh ++ [s]).length - (t.rows ++ [[(k, v)]]).length = 0 := by simp; omega
            simp only [this, List.replicate_zero, List.append_nil]
            rw [List.zip_append (by omega)]
            rfl
        · rw [if_neg he] at hs
          simp only [pure, Except.pure, Except.ok.injEq] at hs
          subst hs
          have hrn : t.rows ≠ [] := by
            intro e
            have : t.rows.length = 0 := by rw [e]; rfl
            omega
          obtain ⟨r0, r, hrr⟩ : ∃ r0 r, t.rows = r0 ++ [r] :=
            ⟨_, _, (List.dropLast_concat_getLast hrn).symm⟩
          have hl0 : r0.length = sh.length := by
            have : t.rows.length = r0.length + 1 := by rw [hrr]; simp
            omega
          refine ⟨r0, r, hl0, ?_, rfl, rfl, rfl, by simp [hrr, hl0], ?_⟩
          · unfold joined
            have : (sh ++ [s]).length - t.rows.length = 0 := by rw [hrr]; simp; omega
            rw [this, hrr]
            simp only [List.replicate_zero, List.append_nil]
            rw [List.zip_append (by omega)]
            rfl
          · show joined (sh ++ [s]) (t.rows.modify t.current (· ++ [(k, v)])) = _
            rw [hrr, modify_last r0 r _ _ (by omega)]
            unfold joined
            have : (sh ++ [s]).length - (r0 ++ [r ++ [(k, v)]]).length = 0 := by simp; omega
            simp only [this, List.replicate_zero, List.append_nil]
            rw [List.zip_append (by omega)]
            rfl
      obtain ⟨r0, r, hr0, hj, k1, k2, k3, k4, hj'⟩ := key
      refine ⟨by rw [k3, k1]; exact h.closed, by rw [k1, hss]; simp; omega,
        by rw [k1, k2]; exact h.current, by rw [k1]; intro e; exact absurd e hsh, ?_⟩
      have hs' := h.same
      unfold contents at hs' ⊢
      rw [k1, k3, hss, hj']
      rw [hss, hj, ← List.append_assoc] at hs'
      rw [← hs', modify_last _ _ _ _ (by simp), List.append_assoc]

theorem tableInv_run {fits : DbfField → DbfValue → Bool} (ops : List ShpOp) {t t' : ShpTable}
    {told : List (ShpShape × DbfRow)} (h : TableInv t told)
    (hg : told ≠ [] ∨ GeometryFirst ops) (hr : t.run fits ops = .ok t') :
    TableInv t' (toldShapes told ops) := by
  induction ops generalizing t told with
  | nil => cases hr; exact h
  | cons op ops ih =>
    simp only [ShpTable.run, bind, Except.bind] at hr
    cases hs : t.step fits op with
    | error e => rw [hs] at hr; cases hr
    | ok t1 =>
      rw [hs] at hr
      cases op with
      | field name type width decimals =>
        have h1 : TableInv t1 told := by
          simp only [ShpTable.step, bind, Except.bind] at hs
          split at hs
          · cases hs
          · split at hs
            · cases hs
            · rename_i b hb
              cases hs
              obtain ⟨e1, e2, e3, _⟩ := addField_files hb
              exact ⟨by simp only [e2]; exact h.closed, by simp only [e3]; exact h.rows,
                by simp only [e3]; exact h.current, by simp only [e3]; exact h.fresh,
                by rw [← h.same]; simp only [contents, e2, e3]⟩
        refine ih h1 ?_ hr
        rcases hg with hg | hg
        · exact Or.inl hg
        · refine Or.inr fun pre k v post e => ?_
          obtain ⟨s, hs⟩ := hg (.field name type width decimals :: pre) k v post (by rw [e]; rfl)
          simp only [List.mem_cons, reduceCtorEq, false_or] at hs
          exact ⟨s, hs⟩
      | geometry s =>
        exact ih (tableInv_geometry h hs) (Or.inl (by simp)) hr
      | attr k v =>
        have hne : told ≠ [] := by
          rcases hg with hg | hg
          · exact hg
          · obtain ⟨s, hs⟩ := hg [] k v ops rfl
            simp at hs
        refine ih (tableInv_attribute h hne hs) (Or.inl ?_) hr
        intro e
        have := congrArg List.length e
        simp only [List.length_modify, List.length_nil, List.length_eq_zero_iff] at this
        exact hne this

theorem tableInv_new (type : ShpType) : TableInv (ShpTable.new type) [] :=
  ⟨rfl, Nat.le_refl 0, by intro e; exact absurd rfl e, fun _ => rfl, rfl⟩

/-- **C69**: Take any sequence of fields, geometries and attributes that are added without exception, where
a geometry is added before the first attribute.  However the shapes are spread over files, the files
together contain exactly the shapes added, in order, each with exactly the values that were given
between it and the next shape. -/
theorem shapefile_attributes (fits : DbfField → DbfValue → Bool) (type : ShpType) (ops : List ShpOp)
    (hg : GeometryFirst ops) (t : ShpTable) (h : (ShpTable.new type).run fits ops = .ok t) :
    contents t = toldShapes [] ops :=
  (tableInv_run ops (tableInv_new type) (Or.inr hg) h).same

/-- When a value can be added: exactly if the field exists, the value fits into it, and all shapes before
the last one in the same file have a record. -/
theorem attribute_accepted_iff (fits : DbfField → DbfValue → Bool) (type : ShpType) (ops : List ShpOp)
    (hg : GeometryFirst ops) (hne : ∃ s, ShpOp.geometry s ∈ ops) (t : ShpTable)
    (h : (ShpTable.new type).run fits ops = .ok t) (k : Nat) (v : DbfValue) :
    (∃ t', t.step fits (.attr k v) = .ok t') ↔
      (∃ f, t.base.fields[k]? = some f ∧ fits f v = true) ∧
        t.base.cur.shapes.length ≤ t.rows.length + 1 := by
  have hi := tableInv_run ops (tableInv_new type) (Or.inr hg) h
  have hl : ∀ (acc : List (ShpShape × DbfRow)) (ops : List ShpOp),
      (acc ≠ [] ∨ ∃ s, ShpOp.geometry s ∈ ops) → toldShapes acc ops ≠ [] := by
    intro acc ops
    induction ops generalizing acc with
    | nil => intro h; rcases h with h | ⟨s, h⟩
             · exact h
             · simp at h
    | cons op ops ih =>
      intro h
      cases op with
      | field a b c d =>
        refine ih acc ?_
        rcases h with h | ⟨s, h⟩
        · exact Or.inl h
        · simp only [List.mem_cons, reduceCtorEq, false_or] at h
          exact Or.inr ⟨s, h⟩
      | geometry s => exact ih _ (Or.inl (by simp))
      | attr a b =>
        refine ih _ ?_
        rcases h with h | ⟨s, h⟩
        · refine Or.inl fun e => h ?_
          have := congrArg List.length e
          simpa using this
        · simp only [List.mem_cons, reduceCtorEq, false_or] at h
          exact Or.inr ⟨s, h⟩
  have hsh : t.base.cur.shapes ≠ [] := fun e => hl [] ops (Or.inr hne) (hi.fresh e)
  have hc := hi.current hsh
  have hrr := hi.rows
  simp only [ShpTable.step, bind, Except.bind, dbfWrite]
  cases hf : t.base.fields[k]? with
  | none => simp
  | some f =>
    simp only [Option.some.injEq, exists_eq_left']
    cases hv : fits f v with
    | false => simp
    | true =>
      by_cases hx : t.current > t.rows.length
      · simp only [hx, true_or, if_true, reduceCtorEq, exists_false, true_and, false_iff]
        omega
      · simp only [hx, Bool.true_eq_false, or_self, if_false, true_and]
        refine ⟨fun _ => by omega, fun _ => ?_⟩
        by_cases he : t.current = t.rows.length
        · exact ⟨_, by rw [if_pos he]; rfl⟩
        · exact ⟨_, by rw [if_neg he]; rfl⟩

/-- So a shape without any attribute makes it impossible to add attributes to the following shapes of the
file, although the documentation only asks for the geometry first. -/
theorem attribute_after_bare_shape (s : ShpShape) (hs : s.type = .point) (v : DbfValue) :
    (ShpTable.new .point).run (fun _ _ => true)
      [.field "name" "string" 10 0, .geometry s, .geometry s, .attr 0 v] =
      .error (.exn "Can't add value to field") := by
  obtain ⟨ty, p, n, i⟩ := s
  simp only at hs
  subst hs
  rfl

/-- Without a geometry the value goes to the first shape added later. -/
theorem attribute_before_geometry (s : ShpShape) (hs : s.type = .point) (v : DbfValue) :
    ((ShpTable.new .point).run (fun _ _ => true)
      [.field "name" "string" 10 0, .attr 0 v, .geometry s]).map contents = .ok [(s, [(0, v)])] := by
  obtain ⟨ty, p, n, i⟩ := s
  simp only at hs
  subst hs
  rfl

/-- The files have different names. -/
theorem shpFileName_injective (base : String) {m n : Nat} (h : shpFileName base m = shpFileName base n) :
    m = n := by
  unfold shpFileName at h
  have hd : ∀ k : Nat, base ≠ base ++ "_" ++ String.ofList (Text.natDec k) := by
    intro k e
    have := congrArg (fun s => s.toList.length) e
    simp at this
  by_cases hm : m = 0
  · by_cases hn : n = 0
    · omega
    · rw [if_pos hm, if_neg hn] at h; exact absurd h (hd n)
  · by_cases hn : n = 0
    · rw [if_neg hm, if_pos hn] at h; exact absurd h.symm (hd m)
    · rw [if_neg hm, if_neg hn] at h
      have := congrArg String.toList h
      simp only [String.toList_append, String.toList_ofList, List.append_assoc, List.append_cancel_left_eq] at this
      have v1 := Text.digitsVal_natDec m [] (by simp [Text.NoDigitHead])
      have v2 := Text.digitsVal_natDec n [] (by simp [Text.NoDigitHead])
      rw [this] at v1
      omega

/-- A concrete case: two fields, two shapes. -/
example :
    let p : ShpShape := { type := .point, parts := 0, vertices := 1, ident := 1 }
    let q : ShpShape := { type := .point, parts := 0, vertices := 1, ident := 2 }
    let ops : List ShpOp := [.field "name" "string" 10 0, .geometry p, .attr 0 (.string [65]),
      .field "n" "integer" 5 0, .attr 1 (.int 5), .geometry q, .attr 1 (.int 7), .attr 1 (.int 8)]
    ((ShpTable.new .point).run (fun _ _ => true) ops).map contents =
      .ok [(p, [(0, .string [65]), (1, .int 5)]), (q, [(1, .int 7), (1, .int 8)])] ∧
    toldShapes [] ops = [(p, [(0, .string [65]), (1, .int 5)]), (q, [(1, .int 7), (1, .int 8)])] := by
  exact ⟨rfl, rfl⟩

/-- ... and one where the second shape goes to another file. -/
example :
    let p : ShpShape := { type := .arc, parts := 1, vertices := 130000000, ident := 1 }
    let q : ShpShape := { type := .arc, parts := 1, vertices := 130000000, ident := 2 }
    let ops : List ShpOp := [.field "n" "integer" 5 0, .geometry p, .attr 0 (.int 5), .geometry q, .attr 0 (.int 7)]
    ((ShpTable.new .arc).run (fun _ _ => true) ops).map (fun t => (contents t, t.base.files.length)) =
      .ok ([(p, [(0, .int 5)]), (q, [(0, .int 7)])], 1) := by
  rfl

example : DbfField.ofText "name" "string" 255 3 = .ok ⟨"name", .string, 255, 0⟩ := rfl

end Osmium

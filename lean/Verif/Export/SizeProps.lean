import Verif.Export.Model

/-
C59: the sizes of shapefiles.
-/
namespace Osmium

namespace Spec

/-- The size of a record in a .shp file: eight bytes of header and the content, according to the "ESRI
Shapefile Technical Description". -/
def shpRecordSize (s : ShpShape) : Nat :=
  8 + match s.type with
    | .null => 4
    | .point => 4 + 16
    | .pointM => 4 + 24
    | .pointZ => 4 + 32
    | .multipoint => 4 + 32 + 4 + 16 * s.vertices
    | .multipointM => 4 + 32 + 4 + 16 * s.vertices + (16 + 8 * s.vertices)
    | .multipointZ => 4 + 32 + 4 + 16 * s.vertices + (16 + 8 * s.vertices) + (16 + 8 * s.vertices)
    | .arc | .polygon => 44 + 4 * s.parts + 16 * s.vertices
    | .arcM | .polygonM => 44 + 4 * s.parts + 16 * s.vertices + (16 + 8 * s.vertices)
    | .arcZ | .polygonZ => 44 + 4 * s.parts + 16 * s.vertices + (16 + 8 * s.vertices) + (16 + 8 * s.vertices)
    | .multipatch => 44 + 4 * s.parts + 4 * s.parts + 16 * s.vertices + (16 + 8 * s.vertices) + (16 + 8 * s.vertices)

/-- The size of the .shp file: a header and the records. -/
def shpSize (f : ShpFile) : Int := 100 + ((f.shapes.map fun s => (shpRecordSize s : Int)).sum)
/-- The size of the .shx file: a header and eight bytes for each record. -/
def shxSize (f : ShpFile) : Int := 100 + 8 * f.shapes.length
/-- The size of a .dbf record: a deletion flag and the fields. -/
def dbfRecordSize (f : ShpFile) : Int := 1 + (f.fields.map (·.width)).sum
/-- The size of the .dbf file: a header with the field descriptors, and the records. -/
def dbfSize (f : ShpFile) : Int := 33 + 32 * f.fields.length + f.shapes.length * dbfRecordSize f

/-- The largest size of files. -/
def shpSizeLimit : Int := 2147483647

/-- A shape that fits into a file at all. -/
def ShapeFits (s : ShpShape) : Prop := 100 + (shpRecordSize s : Int) ≤ shpSizeLimit

/-- All files, in order. -/
def allFiles (s : ShapefileObj) : List ShpFile := s.files ++ [s.cur]

end Spec
open Spec

theorem lengthOnDisk_eq (s : ShpShape) : s.lengthOnDisk = shpRecordSize s := by
  unfold ShpShape.lengthOnDisk shpRecordSize
  cases s.type <;> simp only <;> omega

/-- Fields are added first, then shapes. -/
inductive ShpReach (type : ShpType) : List DbfField → List ShpShape → ShapefileObj → Prop
  | new : ShpReach type [] [] (ShapefileObj.new type)
  | field {fs s s'} {f : DbfField} : ShpReach type fs [] s → 0 ≤ f.width → f.width ≤ 255 → s.addField f = .ok s' →
      ShpReach type (fs ++ [f]) [] s'
  | shape {fs shapes s s'} {shape : ShpShape} : ShpReach type fs shapes s → ShapeFits shape → s.addGeometry shape = .ok s' →
      ShpReach type fs (shapes ++ [shape]) s'

/-- The sum of the widths. -/
def widths (fs : List DbfField) : Int := (fs.map (·.width)).sum

theorem widths_append (fs : List DbfField) (f : DbfField) : widths (fs ++ [f]) = widths fs + f.width := by
  simp [widths]

/-- The invariant. -/
structure ShpInv (type : ShpType) (fs : List DbfField) (shapes : List ShpShape) (s : ShapefileObj) : Prop where
  type_eq : s.type = type
  fields_eq : s.fields = fs
  cur_fields : s.cur.fields = fs
  count_fields : fs.length ≤ 2047
  width_nonneg : 0 ≤ widths fs
  width_le : widths fs ≤ 255 * fs.length
  record : s.recordLength = 1 + widths fs
  shp : s.shpBytes = shpSize s.cur
  dbf : s.dbfBytes = dbfSize s.cur
  shp_le : s.shpBytes ≤ shpSizeLimit
  dbf_le : s.dbfBytes ≤ shpSizeLimit
  shapes_le : ∀ t ∈ s.cur.shapes, 12 ≤ (shpRecordSize t : Int)
  old : ∀ f ∈ s.files, f.fields = fs ∧ shpSize f ≤ shpSizeLimit ∧ dbfSize f ≤ shpSizeLimit ∧ shxSize f ≤ shpSizeLimit ∧ f.shapes ≠ []
  all : (allFiles s).flatMap (·.shapes) = shapes

theorem shpRecordSize_ge (s : ShpShape) : 12 ≤ (shpRecordSize s : Int) := by
  unfold shpRecordSize
  cases s.type <;> simp only <;> omega

theorem shpSize_ge (f : ShpFile) : 100 + 12 * (f.shapes.length : Int) ≤ shpSize f := by
  unfold shpSize
  obtain ⟨fs, shapes⟩ := f
  simp only
  induction shapes with
  | nil => simp
  | cons s ss ih =>
    have := shpRecordSize_ge s
    simp only [List.map_cons, List.sum_cons, List.length_cons]
    push_cast
    omega

theorem shxSize_le (f : ShpFile) : shxSize f ≤ shpSize f := by
  have := shpSize_ge f
  unfold shxSize
  omega

theorem wrapU32_id {x : Int} (h1 : 0 ≤ x) (h2 : x ≤ 4294967295) : wrapU32 x = x := wrapU32_of_in ⟨h1, h2⟩

theorem shpInv (type : ShpType) (fs : List DbfField) (shapes : List ShpShape) (s : ShapefileObj)
    (h : ShpReach type fs shapes s) : ShpInv type fs shapes s := by
  induction h with
  | new =>
    refine ⟨rfl, rfl, rfl, by simp, by simp [widths], by simp [widths], by simp [widths, ShapefileObj.new, ShapefileObj.open_],
      ?_, ?_, ?_, ?_, ?_, ?_, ?_⟩
    · rfl
    · rfl
    · show (100:Int) ≤ 2147483647; decide
    · show (33:Int) ≤ 2147483647; decide
    · intro t ht; simp [ShapefileObj.new, ShapefileObj.open_] at ht
    · intro f hf; simp [ShapefileObj.new, ShapefileObj.open_] at hf
    · rfl
  | @field fs s s' f _ hw1 hw2 hadd ih =>
    unfold ShapefileObj.addField at hadd
    split at hadd
    · rename_i hlt
      simp only [Except.ok.injEq] at hadd
      have hno : s.cur.shapes = [] ∧ s.files = [] := by
        have := ih.all
        simp only [allFiles, List.flatMap_append, List.append_eq_nil_iff] at this
        refine ⟨by simpa using this.2, ?_⟩
        cases hf : s.files with
        | nil => rfl
        | cons a l =>
          have h1 := (ih.old a (by simp [hf])).2.2.2.2
          rw [hf] at this
          simp at this
          exact absurd this.1.1 h1
      have hlen : fs.length < 2047 := by rw [ih.fields_eq] at hlt; exact hlt
      have hwl := ih.width_le
      have hwn := ih.width_nonneg
      have hdbf : s.dbfBytes = 33 + 32 * fs.length := by
        rw [ih.dbf]; simp [dbfSize, ih.cur_fields, hno.1]
      have hshp : s.shpBytes = 100 := by
        rw [ih.shp]; simp [shpSize, hno.1]
      have hr := ih.record
      have e1 : wrapU32 (s.dbfBytes + 32) = 33 + 32 * ((fs.length : Int) + 1) := by
        rw [hdbf, wrapU32_id (by omega) (by omega)]; omega
      have e2 : wrapU32 (s.recordLength + f.width) = 1 + widths (fs ++ [f]) := by
        rw [hr, widths_append, wrapU32_id (by omega) (by omega)]; omega
      subst hadd
      refine ⟨ih.type_eq, ?_, ?_, ?_, ?_, ?_, e2, ?_, ?_, ?_, ?_, ?_, ?_, ?_⟩
      · simp [ih.fields_eq]
      · simp [ih.cur_fields]
      · simp; omega
      · rw [widths_append]; omega
      · rw [widths_append]; simp; omega
      · simp only [hshp, shpSize, hno.1]; simp
      · simp only [e1, dbfSize, hno.1, ih.cur_fields]; simp
      · simp only [hshp]; decide
      · simp only [e1]; unfold shpSizeLimit; omega
      · intro t ht; simp [hno.1] at ht
      · intro g hg; simp [hno.2] at hg
      · simp [allFiles, hno.1, hno.2]
    · cases hadd
  | @shape fs shapes s s' shape _ hfit hadd ih =>
    unfold ShapefileObj.addGeometry at hadd
    split at hadd
    · cases hadd
    · rename_i htype
      simp only [Except.ok.injEq] at hadd
      have hwl := ih.width_le
      have hwn := ih.width_nonneg
      have hcf := ih.count_fields
      have hr := ih.record
      have hfit' := hfit
      unfold ShapeFits shpSizeLimit at hfit'
      have hge := shpRecordSize_ge shape
      have hshp0 := ih.shp_le
      have hdbf0 := ih.dbf_le
      have hshp1 : 100 ≤ s.shpBytes := by rw [ih.shp]; have := shpSize_ge s.cur; omega
      have hdbf1 : 0 ≤ s.dbfBytes := by
        rw [ih.dbf]
        unfold dbfSize dbfRecordSize
        rw [ih.cur_fields]
        have : 0 ≤ (s.cur.shapes.length : Int) * (1 + widths fs) := Int.mul_nonneg (by omega) (by omega)
        unfold widths at this
        omega
      unfold shpSizeLimit at hshp0 hdbf0
      have ec1 : (s.count shape).dbfBytes = s.dbfBytes + s.recordLength := by
        simp only [ShapefileObj.count]; rw [wrapU32_id (by omega) (by omega)]
      have ec2 : (s.count shape).shpBytes = s.shpBytes + shpRecordSize shape := by
        simp only [ShapefileObj.count, lengthOnDisk_eq]; rw [wrapU32_id (by omega) (by omega)]
      have dbfApp : ∀ l : List ShpShape, dbfSize ⟨fs, l ++ [shape]⟩ = dbfSize ⟨fs, l⟩ + (1 + widths fs) := by
        intro l
        simp only [dbfSize, dbfRecordSize, List.length_append, List.length_cons, List.length_nil, widths]
        push_cast
        rw [Int.add_mul]
        omega
      have shpApp : ∀ l : List ShpShape, shpSize ⟨fs, l ++ [shape]⟩ = shpSize ⟨fs, l⟩ + shpRecordSize shape := by
        intro l
        simp only [shpSize, List.map_append, List.sum_append, List.map_cons, List.map_nil, List.sum_cons, List.sum_nil]
        omega
      have hcur : s.cur = ⟨fs, s.cur.shapes⟩ := by
        have := ih.cur_fields
        cases hc : s.cur; rw [hc] at this; simp at this; simp [this]
      split at hadd
      · -- a new file
        have ho : ((s.count shape).nextFile) = { s with
            cur := ⟨fs, []⟩, shpBytes := 100, dbfBytes := 33 + 32 * fs.length,
            files := s.files ++ [s.cur], sequenceNumber := s.sequenceNumber + 1 } := by
          simp only [ShapefileObj.nextFile, ShapefileObj.open_, ShapefileObj.count, ih.fields_eq]
          rw [wrapU32_id (by omega) (by omega)]
        have hcurne : s.cur.shapes ≠ [] := by
          rename_i hover
          intro he
          rw [ec1, ec2] at hover
          unfold maxFileSize at hover
          have h1 : s.shpBytes = 100 := by rw [ih.shp]; simp [shpSize, he]
          have h2 : s.dbfBytes = 33 + 32 * fs.length := by rw [ih.dbf]; simp [dbfSize, ih.cur_fields, he]
          omega
        rw [ho] at hadd
        have ec3 : wrapU32 (33 + 32 * (fs.length : Int) + s.recordLength) = 33 + 32 * fs.length + (1 + widths fs) := by
          rw [hr, wrapU32_id (by omega) (by omega)]
        have ec4 : wrapU32 (100 + (shape.lengthOnDisk : Int)) = 100 + shpRecordSize shape := by
          rw [lengthOnDisk_eq, wrapU32_id (by omega) (by omega)]
        simp only [ShapefileObj.count, ec3, ec4, List.nil_append] at hadd
        subst hadd
        refine ⟨ih.type_eq, ih.fields_eq, rfl, hcf, hwn, hwl, hr, ?_, ?_, ?_, ?_, ?_, ?_, ?_⟩
        · simp [shpSize]
        · simp [dbfSize, dbfRecordSize, widths]
        · simp only; unfold shpSizeLimit; omega
        · simp only; unfold shpSizeLimit; omega
        · intro t ht; exact shpRecordSize_ge t
        · intro f hf
          simp only [List.mem_append, List.mem_singleton] at hf
          rcases hf with hf | rfl
          · exact ih.old f hf
          · refine ⟨ih.cur_fields, ?_, ?_, ?_, hcurne⟩
            · rw [← ih.shp]; exact ih.shp_le
            · rw [← ih.dbf]; exact ih.dbf_le
            · have := shxSize_le s.cur; have h2 := ih.shp_le; rw [ih.shp] at h2; omega
        · have := ih.all
          simp only [allFiles, List.flatMap_append] at this ⊢
          simp [← this]
      · -- the same file
        rename_i hover
        rw [ec1, ec2] at hover
        unfold maxFileSize at hover
        have ed : (s.count shape).dbfBytes = dbfSize ⟨fs, s.cur.shapes ++ [shape]⟩ := by
          rw [ec1, dbfApp, ← hcur, ← ih.dbf, hr]
        have es : (s.count shape).shpBytes = shpSize ⟨fs, s.cur.shapes ++ [shape]⟩ := by
          rw [ec2, shpApp, ← hcur, ← ih.shp]
        have ek : s' = { (s.count shape) with cur := ⟨fs, s.cur.shapes ++ [shape]⟩ } := by
          rw [← hadd]
          have : (s.count shape).cur = s.cur := rfl
          simp only [this, ih.cur_fields]
        subst ek
        refine ⟨ih.type_eq, ih.fields_eq, rfl, hcf, hwn, hwl, hr, es, ed, ?_, ?_, ?_, ih.old, ?_⟩
        · simp only [ec2]; unfold shpSizeLimit; omega
        · simp only [ec1]; unfold shpSizeLimit; omega
        · intro t ht; exact shpRecordSize_ge t
        · have := ih.all
          simp only [allFiles, List.flatMap_append] at this ⊢
          simp [← this, ShapefileObj.count]

/-- C59: all files stay below the limit, each has all fields, and together they have all shapes in the order
in which they were added, if all fields are added before the first shape. -/
theorem shapefile_sizes_partial (type : ShpType) (fs : List DbfField) (shapes : List ShpShape) (s : ShapefileObj)
    (h : ShpReach type fs shapes s) :
    (∀ f ∈ allFiles s, f.fields = fs ∧ shpSize f ≤ shpSizeLimit ∧ shxSize f ≤ shpSizeLimit ∧ dbfSize f ≤ shpSizeLimit) ∧
    (allFiles s).flatMap (·.shapes) = shapes := by
  have hi := shpInv type fs shapes s h
  refine ⟨?_, hi.all⟩
  intro f hf
  simp only [allFiles, List.mem_append, List.mem_singleton] at hf
  rcases hf with hf | rfl
  · have := hi.old f hf
    exact ⟨this.1, this.2.1, this.2.2.2.1, this.2.2.1⟩
  · refine ⟨hi.cur_fields, ?_, ?_, ?_⟩
    · rw [← hi.shp]; exact hi.shp_le
    · have := shxSize_le s.cur; have h2 := hi.shp_le; rw [hi.shp] at h2; omega
    · rw [← hi.dbf]; exact hi.dbf_le

/-- C59: a shape of the right type is always stored. -/
theorem shapefile_stores_partial (type : ShpType) (fs : List DbfField) (shapes : List ShpShape) (s : ShapefileObj)
    (h : ShpReach type fs shapes s) (shape : ShpShape) (ht : shape.type = type) (hf : ShapeFits shape) :
    ∃ s', s.addGeometry shape = .ok s' ∧ ShpReach type fs (shapes ++ [shape]) s' := by
  have hi := shpInv type fs shapes s h
  have : ∃ s', s.addGeometry shape = .ok s' := by
    unfold ShapefileObj.addGeometry
    rw [if_neg (by simp [ht, hi.type_eq])]
    exact ⟨_, rfl⟩
  obtain ⟨s', hs'⟩ := this
  exact ⟨s', hs', .shape h hf hs'⟩

/-- C59: a new file is started only if the shape does not fit into the current one. -/
theorem shapefile_splits_late_partial (type : ShpType) (fs : List DbfField) (shapes : List ShpShape) (s s' : ShapefileObj)
    (h : ShpReach type fs shapes s) (shape : ShpShape) (hf : ShapeFits shape) (hs : s.addGeometry shape = .ok s')
    (h1 : shpSize { s.cur with shapes := s.cur.shapes ++ [shape] } ≤ shpSizeLimit)
    (h2 : dbfSize { s.cur with shapes := s.cur.shapes ++ [shape] } ≤ shpSizeLimit) :
    s'.files = s.files := by
  have hi := shpInv type fs shapes s h
  unfold ShapefileObj.addGeometry at hs
  split at hs
  · cases hs
  · simp only [Except.ok.injEq] at hs
    have hshp0 := hi.shp_le
    have hdbf0 := hi.dbf_le
    have hge := shpRecordSize_ge shape
    have hwl := hi.width_le
    have hwn := hi.width_nonneg
    have hcf := hi.count_fields
    have hr := hi.record
    have hshp1 : 100 ≤ s.shpBytes := by rw [hi.shp]; have := shpSize_ge s.cur; omega
    have hdbf1 : 0 ≤ s.dbfBytes := by
      rw [hi.dbf]
      unfold dbfSize dbfRecordSize
      rw [hi.cur_fields]
      have : 0 ≤ (s.cur.shapes.length : Int) * (1 + widths fs) := Int.mul_nonneg (by omega) (by omega)
      unfold widths at this
      omega
    unfold ShapeFits shpSizeLimit at hf
    unfold shpSizeLimit at hshp0 hdbf0 h1 h2
    have ec1 : (s.count shape).dbfBytes = s.dbfBytes + s.recordLength := by
      simp only [ShapefileObj.count]; rw [wrapU32_id (by omega) (by omega)]
    have ec2 : (s.count shape).shpBytes = s.shpBytes + shpRecordSize shape := by
      simp only [ShapefileObj.count, lengthOnDisk_eq]; rw [wrapU32_id (by omega) (by omega)]
    have e1 : shpSize { s.cur with shapes := s.cur.shapes ++ [shape] } = s.shpBytes + shpRecordSize shape := by
      rw [hi.shp]
      simp only [shpSize, List.map_append, List.sum_append, List.map_cons, List.map_nil, List.sum_cons, List.sum_nil]
      omega
    have e2 : dbfSize { s.cur with shapes := s.cur.shapes ++ [shape] } = s.dbfBytes + s.recordLength := by
      rw [hi.dbf, hr]
      simp only [dbfSize, dbfRecordSize, List.length_append, List.length_cons, List.length_nil, widths, hi.cur_fields]
      push_cast
      rw [Int.add_mul]
      omega
    rw [if_neg] at hs
    · subst hs; rfl
    · rw [ec1, ec2]
      unfold maxFileSize
      omega

/-- Two fields and two points. -/
example : ∃ s, ShpReach .point [⟨"id", .integer, 10, 0⟩, ⟨"name", .string, 60, 0⟩]
    [⟨.point, 0, 1, 0⟩, ⟨.point, 0, 1, 0⟩] s ∧ s.dbfBytes = 33 + 64 + 2 * 71 ∧ s.shpBytes = 100 + 2 * 28 :=
  ⟨_, .shape (shapes := [⟨.point, 0, 1, 0⟩])
    (.shape (shapes := []) (.field (fs := [⟨"id", .integer, 10, 0⟩]) (.field (fs := []) .new (by decide) (by decide) rfl) (by decide) (by decide) rfl)
      (by unfold ShapeFits; decide) rfl) (by unfold ShapeFits; decide) rfl, by decide, by decide⟩

/-! ### Fields added later -/

theorem points_sum (n : Nat) : ((List.replicate n ({ type := .point, parts := 0, vertices := 1 } : ShpShape)).map
    fun s => (shpRecordSize s : Int)).sum = 28 * n := by
  induction n with
  | zero => rfl
  | succ n ih =>
    rw [List.replicate_succ, List.map_cons, List.sum_cons, ih]
    have : (shpRecordSize { type := .point, parts := 0, vertices := 1 } : Int) = 28 := rfl
    rw [this]; push_cast; omega

/-- Only points, as long as they fit: all in one file. -/
theorem points_one_file (n : Nat) (hn : 100 + 28 * (n : Int) ≤ 2147483647) :
    ∃ s, ShpReach .point [⟨"id", .integer, 10, 0⟩] (List.replicate n ⟨.point, 0, 1, 0⟩) s ∧ s.files = [] := by
  induction n with
  | zero => exact ⟨_, .field (fs := []) .new (by decide) (by decide) rfl, rfl⟩
  | succ n ih =>
    obtain ⟨s, hs, hf⟩ := ih (by push_cast at hn; omega)
    have hfit : ShapeFits ⟨.point, 0, 1, 0⟩ := by unfold ShapeFits; decide
    obtain ⟨s', hs', hr⟩ := shapefile_stores_partial _ _ _ s hs ⟨.point, 0, 1, 0⟩ rfl hfit
    have hi := shpInv _ _ _ s hs
    have hall := hi.all
    simp only [allFiles, hf, List.nil_append, List.flatMap_cons, List.flatMap_nil, List.append_nil] at hall
    have hsum := points_sum n
    refine ⟨s', ?_, ?_⟩
    · rw [List.replicate_succ']; exact hr
    · rw [shapefile_splits_late_partial _ _ _ s s' hs _ hfit hs' ?_ ?_, hf]
      · simp only [shpSize, hall, List.map_append, List.sum_append, hsum]
        have : (([({ type := .point, parts := 0, vertices := 1 } : ShpShape)].map
          fun s => (shpRecordSize s : Int))).sum = 28 := rfl
        rw [this]; push_cast at hn; unfold shpSizeLimit; omega
      · simp only [dbfSize, dbfRecordSize, hall, hi.cur_fields]
        have : (([({ name := "id", type := .integer, width := 10, decimals := 0 } : DbfField)].map (·.width))).sum = 10 := rfl
        rw [this]
        simp
        push_cast at hn
        unfold shpSizeLimit
        omega

/-- C59 fails if a field is added after the shapes: the field makes all records longer, which is not
counted, so that the .dbf file gets much larger than the limit. -/
theorem late_field_exceeds_limit :
    ∃ s s', (∃ shapes, ShpReach .point [⟨"id", .integer, 10, 0⟩] shapes s) ∧
      s.addField ⟨"name", .string, 255, 0⟩ = .ok s' ∧ shpSizeLimit < dbfSize s'.cur ∧ s'.dbfBytes ≤ shpSizeLimit := by
  obtain ⟨s, hs, hf⟩ := points_one_file 50000000 (by decide)
  have hi := shpInv _ _ _ s hs
  have hall := hi.all
  simp only [allFiles, hf, List.nil_append, List.flatMap_cons, List.flatMap_nil, List.append_nil] at hall
  have hlen : s.cur.shapes.length = 50000000 := by rw [hall]; exact List.length_replicate
  have hd : s.dbfBytes = 33 + 32 * 1 + 50000000 * 11 := by
    rw [hi.dbf]
    simp only [dbfSize, dbfRecordSize, hi.cur_fields, hlen]
    rfl
  refine ⟨s, { s with
      recordLength := wrapU32 (s.recordLength + 255), dbfBytes := wrapU32 (s.dbfBytes + 32)
      fields := s.fields ++ [⟨"name", .string, 255, 0⟩]
      cur := { s.cur with fields := s.cur.fields ++ [⟨"name", .string, 255, 0⟩] } }, ⟨_, hs⟩, ?_, ?_, ?_⟩
  · unfold ShapefileObj.addField
    rw [if_pos (by simp only [hi.fields_eq]; decide)]
  · simp only [dbfSize, dbfRecordSize, hi.cur_fields, hlen]
    decide
  · simp only [hd]
    decide

end Osmium

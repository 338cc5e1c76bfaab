import Verif.Pbf.File
import Verif.Pbf.BlobProps
import Verif.Pbf.Props
import Verif.Input.Props
import Verif.Input.Observer
/-
Complete PBF files: header checks (C19), bounding box (C20), the callback protocol for arbitrary
input (C21, C22), whole files written and read again, truncated files (C61).
-/
namespace Osmium
open Spec

/-! ### C19: header checks -/

/-- The features this library supports. -/
def Spec.supportedFeatures : List String := ["OsmSchema-V0.6", "DenseNodes", "HistoricalInformation"]

theorem checkFeatures_spec (fs : List String) (has : Bool) :
    if ∀ f ∈ fs, f ∈ supportedFeatures then
      checkFeatures has fs = .ok (has || decide ("HistoricalInformation" ∈ fs))
    else ∃ msg, checkFeatures has fs = .error (.exn msg) := by
  induction fs generalizing has with
  | nil => simp [checkFeatures]
  | cons f fs ih =>
    simp only [List.forall_mem_cons, checkFeatures]
    by_cases h1 : f = "OsmSchema-V0.6"
    · subst h1
      have := ih has
      simpa [supportedFeatures] using this
    by_cases h2 : f = "DenseNodes"
    · subst h2
      have := ih has
      simpa [supportedFeatures] using this
    by_cases h3 : f = "HistoricalInformation"
    · subst h3
      have := ih true
      simpa [supportedFeatures] using this
    · have : ¬ (f ∈ supportedFeatures) := by simp [supportedFeatures, h1, h2, h3]
      simp [this, h1, h2, h3]

/-- **C19**: a header is accepted exactly if all required features are supported, and a file with
HistoricalInformation is not expected to be a plain OSM file, and a file without it is not expected
to be a history file. -/
theorem header_accepted_iff (ft : FileType) (m : Meta) (h : HeaderMsg) :
    (∃ m', readHeader ft m h = .ok m') ↔
      (∀ f ∈ h.features, f ∈ supportedFeatures) ∧
      (ft = .osm → "HistoricalInformation" ∉ h.features) ∧
      (ft = .history → "HistoricalInformation" ∈ h.features) := by
  have hs := checkFeatures_spec h.features false
  unfold readHeader
  split at hs
  · rename_i hf
    rw [hs]
    simp only [bind, Except.bind, Bool.false_or, checkType]
    by_cases hh : "HistoricalInformation" ∈ h.features <;> cases ft <;>
      simp [hh, hf, pure, Except.pure] <;> exact hf
  · rename_i hf
    obtain ⟨msg, e⟩ := hs
    rw [e]
    simp only [bind, Except.bind]
    constructor
    · rintro ⟨_, h⟩; cases h
    · intro h; exact absurd h.1 hf

/-- A header that is not accepted gives an exception. -/
theorem header_rejected (ft : FileType) (m : Meta) (h : HeaderMsg)
    (hr : ¬ ∃ m', readHeader ft m h = .ok m') : ∃ msg, readHeader ft m h = .error (.exn msg) := by
  have hs := checkFeatures_spec h.features false
  unfold readHeader at *
  split at hs
  · rw [hs] at hr ⊢
    simp only [bind, Except.bind, checkType] at hr ⊢
    by_cases hh : "HistoricalInformation" ∈ h.features <;> cases ft <;>
      simp [hh, pure, Except.pure] at hr ⊢
  · obtain ⟨msg, e⟩ := hs
    rw [e]
    exact ⟨msg, rfl⟩

theorem headerMsg_features (cfg : PbfCfg) (ft : FileType) (g : String) (m : Meta) :
    (∀ f ∈ (headerMsg cfg ft g m).features, f ∈ supportedFeatures) ∧
    ("HistoricalInformation" ∈ (headerMsg cfg ft g m).features ↔ ft = .history) := by
  unfold headerMsg
  cases ft <;> cases cfg.dense <;> simp [supportedFeatures]

/-- **C19**: the header the writer writes for a type of file is accepted for this type, whatever
the settings. -/
theorem written_header_accepted (cfg : PbfCfg) (ft : FileType) (g : String) (m m0 : Meta) :
    ∃ m', readHeader ft m0 (headerMsg cfg ft g m) = .ok m' := by
  rw [header_accepted_iff]
  have := headerMsg_features cfg ft g m
  exact ⟨this.1, fun h hh => (by rw [this.2, h] at hh; cases hh), this.2.2⟩

/-- **C19**: the header of a history file is rejected if a plain OSM file is expected, and the other
way round. -/
theorem written_header_rejected (cfg : PbfCfg) (g : String) (m m0 : Meta) :
    (∃ msg, readHeader .osm m0 (headerMsg cfg .history g m) = .error (.exn msg)) ∧
    (∃ msg, readHeader .history m0 (headerMsg cfg .osm g m) = .error (.exn msg)) := by
  constructor <;> apply header_rejected <;> rw [header_accepted_iff]
  · rintro ⟨_, h, _⟩
    exact h rfl ((headerMsg_features cfg .history g m).2.2 rfl)
  · rintro ⟨_, _, h⟩
    have := (headerMsg_features cfg .osm g m).2.1 (h rfl)
    cases this

/-- A header without any feature, and one with an unknown feature. -/
example : readHeader .osm (Meta.new false) ⟨[], none, none⟩ = .ok (Meta.new false) ∧
    readHeader .osm (Meta.new false) ⟨["OsmSchema-V0.6", "Foo"], none, none⟩ =
      .error (.exn "Required feature not supported: Foo") := by decide

/-! ### C20: the bounding box in the header -/

/-- Coordinates differ by at most one unit (1e-7 degrees), towards zero. -/
def Spec.NearlyEqual (x y : Int) : Prop := |y - x| ≤ 1 ∧ |y| ≤ |x|

/-- Bounds as they result from `extend` calls with defined positions. -/
structure Bounds.Proper (b : Bounds) : Prop where
  bl : b.bottomLeft.WF
  tr : b.topRight.WF
  x : b.bottomLeft.x ≤ b.topRight.x
  y : b.bottomLeft.y ≤ b.topRight.y

theorem near_mono {x y r s : Int} (hx : NearlyEqual x r) (hy : NearlyEqual y s) (h : x ≤ y)
    (he : x = y → r = s) : r ≤ s := by
  obtain ⟨h1, h2⟩ := hx
  obtain ⟨h3, h4⟩ := hy
  rw [abs_le] at h1 h3
  by_cases e : x = y
  · rw [he e]
  rcases le_or_gt 0 x with h0 | h0 <;> rcases le_or_gt 0 r with g0 | g0 <;>
    rcases le_or_gt 0 y with k0 | k0 <;> rcases le_or_gt 0 s with j0 | j0 <;>
    simp only [abs_of_nonneg, abs_of_neg, *] at h2 h4 <;> omega

theorem near_ne_invalid {x r : Int} (h : InS32 x) (hx : NearlyEqual x r)
    (hne : x ≠ Position.invalid) : r ≠ Position.invalid := by
  obtain ⟨h1, h2⟩ := hx
  unfold InS32 at h
  unfold Position.invalid at *
  rw [abs_le] at h1
  rcases le_or_gt 0 x with h0 | h0 <;> rcases le_or_gt 0 r with g0 | g0 <;>
    simp only [abs_of_nonneg, abs_of_neg, *] at h2 <;> omega

/-- **C20** (partial): the bounds in the metadata given to the writer are read from the header with
each coordinate changed by at most one unit.  That they are unchanged is false, see
`bbox_roundtrip_fails`. -/
theorem header_bounds_partial (cfg : PbfCfg) (ft : FileType) (g : String) (m : Meta)
    (hb : m.bounds.Proper) (hd : m.bounds.defined = true) :
    let r := headerBounds Bounds.empty (headerMsg cfg ft g m).bbox
    r.defined = true ∧
    NearlyEqual m.bounds.bottomLeft.x r.bottomLeft.x ∧ NearlyEqual m.bounds.bottomLeft.y r.bottomLeft.y ∧
    NearlyEqual m.bounds.topRight.x r.topRight.x ∧ NearlyEqual m.bounds.topRight.y r.topRight.y := by
  obtain ⟨⟨⟨lx, ly⟩, ⟨hx, hy⟩⟩, gen, mu⟩ := m
  simp only at hb hd ⊢
  have wr : ∀ x, InS32 x → NearlyEqual x (wrapS32 ((bboxCoord x).tdiv 100)) := by
    intro x h
    have hr := bbox_roundtrip_partial x h
    simp only at hr
    have : wrapS32 ((bboxCoord x).tdiv 100) = (bboxCoord x).tdiv 100 := by
      generalize (bboxCoord x).tdiv 100 = r at hr ⊢
      have h1 := hr.1; have h2 := hr.2
      rw [abs_le] at h1
      unfold InS32 at h
      unfold wrapS32
      rcases le_or_gt 0 x with h0 | h0 <;> rcases le_or_gt 0 r with g0 | g0 <;>
        simp only [abs_of_nonneg, abs_of_neg, *] at h2 <;> omega
    rw [this]; exact hr
  have n1 := wr lx hb.bl.1
  have n2 := wr ly hb.bl.2
  have n3 := wr hx hb.tr.1
  have n4 := wr hy hb.tr.2
  have o1 := near_mono n1 n3 hb.x (fun h => by rw [show lx = hx from h])
  have o2 := near_mono n2 n4 hb.y (fun h => by rw [show ly = hy from h])
  have b1 := hb.bl.1
  have b2 := hb.bl.2
  simp only [headerMsg, hd, if_true, headerBounds]
  generalize wrapS32 ((bboxCoord lx).tdiv 100) = r1 at *
  generalize wrapS32 ((bboxCoord ly).tdiv 100) = r2 at *
  generalize wrapS32 ((bboxCoord hx).tdiv 100) = r3 at *
  generalize wrapS32 ((bboxCoord hy).tdiv 100) = r4 at *
  have hdef : (Position.mk r1 r2).defined = true := by
    simp only [Bounds.defined, Position.defined, bne_iff_ne, Bool.and_eq_true, ne_eq] at hd ⊢
    exact ⟨near_ne_invalid b1 n1 hd.1, near_ne_invalid b2 n2 hd.2⟩
  have e0 : Bounds.empty.extend ⟨r1, r2⟩ = ⟨⟨r1, r2⟩, ⟨r1, r2⟩⟩ := by
    simp [Bounds.extend, Bounds.empty, Position.undef, Position.defined]
  rw [e0]
  have e1 : Bounds.extend ⟨⟨r1, r2⟩, ⟨r1, r2⟩⟩ ⟨r3, r4⟩ = ⟨⟨r1, r2⟩, ⟨r3, r4⟩⟩ := by
    simp only [Bounds.extend, hdef, if_true]
    rw [if_neg (by omega), if_neg (by omega)]
    congr 2
    · split <;> omega
    · split <;> omega
  rw [e1]
  exact ⟨hdef, n1, n2, n3, n4⟩

/-- Bounds that are not defined are not written, and are read as undefined. -/
theorem header_bounds_undefined (cfg : PbfCfg) (ft : FileType) (g : String) (m : Meta)
    (hd : m.bounds.defined = false) :
    headerBounds Bounds.empty (headerMsg cfg ft g m).bbox = Bounds.empty := by
  simp [headerMsg, hd, headerBounds]

example : (Bounds.mk ⟨-1800000000, -900000000⟩ ⟨1800000000, 900000000⟩).Proper := by
  refine ⟨⟨?_, ?_⟩, ⟨?_, ?_⟩, ?_, ?_⟩ <;> first | decide | (unfold InS32; decide)

/-! ### C21, C22: the callbacks for arbitrary input -/

theorem readEach_objs {α : Type} (f : α → Res OsmObj) (t : ObjType)
    (hf : ∀ a o, f a = .ok o → o.type = t) (l : List α) :
    ∀ c ∈ (readEach f l).calls, ∃ o : OsmObj, c = .obj o ∧ o.type = t := by
  induction l with
  | nil => simp [readEach]
  | cons a l ih =>
    unfold readEach
    split
    · simp
    · rename_i o ho
      intro c hc
      simp only [List.mem_cons] at hc
      rcases hc with rfl | hc
      · exact ⟨o, rfl, hf a o ho⟩
      · exact ih c hc

theorem readDenseLoop_objs (b : PBlock) (hi hv : Bool) (l : List Int) (s : DenseState) :
    ∀ c ∈ (readDenseLoop b hi hv l s).calls, ∃ o : OsmObj, c = .obj o ∧ o.type = .node := by
  induction l generalizing s with
  | nil => simp [readDenseLoop]
  | cons a l ih =>
    unfold readDenseLoop
    split
    · simp
    · rename_i n s' _
      intro c hc
      simp only [List.mem_cons] at hc
      rcases hc with rfl | hc
      · exact ⟨.node n, rfl, rfl⟩
      · exact ih s' c hc

theorem readGroup_obs (m : Meta) (last : ObjType) (hl : ReaderType last) (b : PBlock) (g : PGroup) :
    ObsOk last (readGroup m last b g).1 (readGroup m last b g).2 := by
  have key : ∀ (t : ObjType) (e : Events), (t = .node ∨ t = .way ∨ t = .relation) →
      (∀ c ∈ e.calls, ∃ o : OsmObj, c = .obj o ∧ o.type = t) →
      ObsOk last (Events.seq ⟨afterAndBefore m last t, none⟩ e) t := by
    intro t e ht he
    have hr : ReaderType t := by rcases ht with rfl | rfl | rfl <;> simp [ReaderType]
    have hs : obsState t = .inside t := by rcases ht with rfl | rfl | rfl <;> rfl
    refine ⟨hr, t, hr, ?_, fun _ => rfl⟩
    simp only [Events.seq, List.foldl_append, obs_after_before m last t hl ht]
    rw [hs]; exact obs_objs t _ he
  unfold readGroup
  cases hd : g.dense with
  | some d => exact key .node _ (by simp) (readDenseLoop_objs _ _ _ _ _)
  | none =>
    simp only
    split
    · apply key .way _ (by simp)
      apply readEach_objs
      intro a o h
      obtain ⟨w, _, h⟩ := except_bind_ok h
      cases h; rfl
    · split
      · apply key .relation _ (by simp)
        apply readEach_objs
        intro a o h
        obtain ⟨w, _, h⟩ := except_bind_ok h
        cases h; rfl
      · split
        · apply key .node _ (by simp)
          apply readEach_objs
          intro a o h
          obtain ⟨w, _, h⟩ := except_bind_ok h
          cases h; rfl
        · exact ⟨hl, last, hl, rfl, by simp⟩

theorem readGroups_obs (m : Meta) (b : PBlock) (gs : List PGroup) (last : ObjType)
    (hl : ReaderType last) : ObsOk last (readGroups m b last gs).1 (readGroups m b last gs).2 := by
  induction gs generalizing last with
  | nil => exact ⟨hl, last, hl, rfl, fun _ => rfl⟩
  | cons g gs ih =>
    have h1 := readGroup_obs m last hl b g
    exact h1.seq (ih _ h1.1)

theorem parseBlobs_obs (c : PbfCodec) (ft : FileType) (bs : List (String × Bytes)) (m : Meta)
    (last : ObjType) (hl : ReaderType last) :
    ObsOk last (parseBlobs c ft m last bs).1 (parseBlobs c ft m last bs).2.2 := by
  have nil : ∀ f, ObsOk last ⟨[], some f⟩ last := fun f => ⟨hl, last, hl, rfl, by simp⟩
  induction bs generalizing last m with
  | nil => exact ⟨hl, last, hl, rfl, fun _ => rfl⟩
  | cons b bs ih =>
    obtain ⟨t, d⟩ := b
    unfold parseBlobs
    split
    · split
      · exact nil _
      · rename_i b _
        have h1 := readGroups_obs m b b.groups last hl
        exact h1.seq (ih m _ h1.1 (fun f => ⟨h1.1, _, h1.1, rfl, by simp⟩))
    · split
      · split
        · exact nil _
        · split
          · exact nil _
          · exact ih _ _ hl nil
      · exact ih _ _ hl nil

/-- **C21, C22** for arbitrary bytes and an arbitrary handler: whatever the input, and wherever the
handler throws `StopReading`, the calls other than `final` follow the protocol (`init` first and
once, objects only between `before` and `after` of their type, ...); `parse` either returns, and
then `final` has been called exactly once, after all other calls, or throws, and then `final` has
not been called. -/
theorem pbf_protocol (c : PbfCodec) (ft : FileType) (h : Stops) (s : Input) :
    ∃ pre, FollowsSoFar pre ∧
      (pbfParse c ft h s = (pre ++ [.final], .returned) ∨
       ∃ e, pbfParse c ft h s = (pre, .threw e)) := by
  unfold pbfParse
  rcases hb : readBlobs c.toBlobCodec s with ⟨bs, f⟩
  have ho := parseBlobs_obs c ft bs (Meta.new ft.multi) .unknown (by simp [ReaderType])
  rcases hp : parseBlobs c ft (Meta.new ft.multi) .unknown bs with ⟨ev, m, last⟩
  rw [hp] at ho
  simp only [hp] at ho ⊢
  exact frame_protocol h _ m last (ho.seq ⟨ho.1, last, ho.1, rfl, fun _ => rfl⟩)

/-- **C21** for arbitrary bytes and a handler that never throws: if `parse` returns, the calls
follow the complete protocol, or there was no group of objects at all and only `final` has been
called. -/
theorem pbf_protocol_complete (c : PbfCodec) (ft : FileType) (h : Stops) (hh : ∀ l, h l = false)
    (s : Input) (calls : List Cb) (hr : pbfParse c ft h s = (calls, .returned)) :
    calls = [.final] ∨ Follows calls := by
  unfold pbfParse at hr
  rcases hb : readBlobs c.toBlobCodec s with ⟨bs, f⟩
  rw [hb] at hr
  have ho := parseBlobs_obs c ft bs (Meta.new ft.multi) .unknown (by simp [ReaderType])
  rcases hp : parseBlobs c ft (Meta.new ft.multi) .unknown bs with ⟨ev, m, last⟩
  rw [hp] at ho
  simp only [hp] at ho hr
  exact frame_protocol_complete h hh _ m last (ho.seq ⟨ho.1, last, ho.1, rfl, fun _ => rfl⟩) calls hr

/-! ### Whole files -/

/-- The metadata read from the header of a file. -/
def readMeta (cfg : PbfCfg) (ft : FileType) (generator : String) (m : Meta) : Meta :=
  ⟨headerBounds Bounds.empty (headerMsg cfg ft generator m).bbox, generator, ft.multi⟩

theorem header_read (cfg : PbfCfg) (ft : FileType) (g : String) (m : Meta) :
    readHeader ft (Meta.new ft.multi) (headerMsg cfg ft g m) = .ok (readMeta cfg ft g m) := by
  obtain ⟨m', h⟩ := written_header_accepted cfg ft g m (Meta.new ft.multi)
  rw [h]
  unfold readHeader at h
  obtain ⟨a, _, h⟩ := except_bind_ok h
  obtain ⟨b, _, h⟩ := except_bind_ok h
  cases h; rfl

theorem bboxCoord_range {x : Int} (h : InS32 x) : InS64 (bboxCoord x) := by
  have hr := bbox_roundtrip_partial x h
  simp only at hr
  have h1 := hr.1
  rw [abs_le] at h1
  have h2 := Int.mul_tdiv_add_tmod (bboxCoord x) 100
  have h3 := Int.tmod_lt_of_pos (bboxCoord x) (show (0 : Int) < 100 by decide)
  have h4 : -100 < (bboxCoord x).tmod 100 := by
    have := Int.lt_tmod_of_pos (bboxCoord x) (show (0 : Int) < 100 by decide)
    omega
  unfold InS32 at h
  unfold InS64
  omega

theorem headerMsg_range (cfg : PbfCfg) (ft : FileType) (g : String) (m : Meta)
    (h1 : m.bounds.bottomLeft.WF) (h2 : m.bounds.topRight.WF) : (headerMsg cfg ft g m).InRange := by
  unfold HeaderMsg.InRange headerMsg
  by_cases hd : m.bounds.defined
  · simp only [hd, if_true]
    exact ⟨bboxCoord_range h1.1, bboxCoord_range h1.2, bboxCoord_range h2.1, bboxCoord_range h2.2⟩
  · simp [hd]

theorem parseBlobs_data (c : PbfCodec) (ft : FileType) (m : Meta) (bs : List PBlock)
    (hr : ∀ b ∈ bs, b.InRange) (last : ObjType) :
    parseBlobs c ft m last (bs.map (fun b => ("OSMData", c.encBlock b))) =
      ((readBlocks m last bs).1, m, (readBlocks m last bs).2) := by
  induction bs generalizing last with
  | nil => rfl
  | cons b bs ih =>
    rw [List.map_cons, parseBlobs, if_pos rfl, c.block_law b (hr b (by simp))]
    simp only [readBlocks, ih (fun x hx => hr x (by simp [hx]))]

/-- The blobs of a file. -/
def fileBlobs (c : PbfCodec) (cfg : PbfCfg) (ft : FileType) (g : String) (m : Meta)
    (bs : List PBlock) : List (String × Bytes) :=
  ("OSMHeader", c.encHeader (headerMsg cfg ft g m)) :: bs.map (fun b => ("OSMData", c.encBlock b))

theorem parseBlobs_file (c : PbfCodec) (cfg : PbfCfg) (ft : FileType) (g : String) (m : Meta)
    (h1 : m.bounds.bottomLeft.WF) (h2 : m.bounds.topRight.WF) (bs : List PBlock)
    (hr : ∀ b ∈ bs, b.InRange) :
    parseBlobs c ft (Meta.new ft.multi) .unknown (fileBlobs c cfg ft g m bs) =
      ((readBlocks (readMeta cfg ft g m) .unknown bs).1, readMeta cfg ft g m,
        (readBlocks (readMeta cfg ft g m) .unknown bs).2) := by
  unfold fileBlobs
  rw [parseBlobs, if_neg (by decide), if_pos rfl, c.header_law _ (headerMsg_range cfg ft g m h1 h2)]
  simp only [header_read]
  exact parseBlobs_data c ft _ bs hr _

theorem forall₂_left {α β : Type} {R : α → β → Prop} {l : List α} {l' : List β}
    (h : List.Forall₂ R l l') : ∀ a ∈ l, ∃ b ∈ l', R a b := by
  induction h with
  | nil => simp
  | cons h _ ih =>
    intro a ha
    simp only [List.mem_cons] at ha
    rcases ha with rfl | ha
    · exact ⟨_, by simp, h⟩
    · obtain ⟨b, hb, hr⟩ := ih a ha
      exact ⟨b, by simp [hb], hr⟩

/-- **A file written and read again, down to the bytes** (C14, C15, C16, C18, C19, C20, C21).  A
program writes storable objects, sorted by type, to a PBF file of type `ft`, compressed or not, with
settings that keep coordinates exact, and the sizes of the blobs do not exceed the limits of the
format.  Whatever the protobuf and zlib libraries do (as long as they decode what they encoded) and
however the operating system splits up the data on reading: reading the file as a file of type `ft`
calls the handler with exactly the objects written, in order, according to the protocol, and
`init` gets the generator and the bounds from the header. -/
theorem pbf_file_roundtrip (lib : PbfLib) (c : PbfCodec) (cfg : PbfCfg) (hc : cfg.Exact)
    (compress : Bool) (ft : FileType) (g : String) (m : Meta)
    (h1 : m.bounds.bottomLeft.WF) (h2 : m.bounds.topRight.WF) (os : List OsmObj) (hne : os ≠ [])
    (ho : ∀ o ∈ os, o.PbfOk) (hs : FewStrings cfg.metadata os) (hsort : SortedByType os)
    (data : Bytes) (hw : pbfFile lib c cfg compress ft g m os = .ok data)
    (hfit : ∀ bs, pbfBlocks lib cfg os = .ok bs →
      ∀ b ∈ fileBlobs c cfg ft g m bs, BlobFits c.toBlobCodec compress b.1 b.2)
    (h : Stops) (hh : ∀ l, h l = false) (chunks : Nat → Nat) :
    pbfParse c ft h ⟨data, chunks⟩ =
      (protocol (readMeta cfg ft g m) (os.map (kept cfg.metadata cfg.addVisible)), .returned) := by
  obtain ⟨bs, ch, e1, e2, e3⟩ := pbfBlocks_ok lib hc os ⟨ho, hs⟩
  have hr : ∀ b ∈ bs, b.InRange := fun b hb => by
    obtain ⟨_, _, hr⟩ := forall₂_left e3 b hb
    exact hr.1
  have hw' : storeBlobs c.toBlobCodec compress (fileBlobs c cfg ft g m bs) = .ok data := by
    unfold pbfFile at hw
    rw [e1] at hw
    exact hw
  have hrb := blobs_roundtrip c.toBlobCodec compress _ data hw' (hfit bs e1) chunks
  unfold pbfParse
  rw [hrb]
  simp only [parseBlobs_file c cfg ft g m h1 h2 bs hr]
  rw [readBlocks_ok e3, regroup_chunks_sorted ch (e2 ▸ hsort), e2, no_stop _ _ h hh]
  simp only [Events.seq, List.append_nil]
  have := allCalls_protocol (readMeta cfg ft g m) (os.map (kept cfg.metadata cfg.addVisible))
    (by simpa using hne)
  unfold allCalls at this
  rw [this]

/-- **C19** at the level of files: a history file read as plain OSM file, or a plain OSM file read
as history file, is rejected, without any callback. -/
theorem pbf_file_wrong_type (lib : PbfLib) (c : PbfCodec) (cfg : PbfCfg)
    (compress : Bool) (ft ft' : FileType) (g : String) (m : Meta)
    (hft : ft = .osm ∧ ft' = .history ∨ ft = .history ∧ ft' = .osm)
    (h1 : m.bounds.bottomLeft.WF) (h2 : m.bounds.topRight.WF) (os : List OsmObj)
    (data : Bytes) (hw : pbfFile lib c cfg compress ft g m os = .ok data)
    (hfit : ∀ bs, pbfBlocks lib cfg os = .ok bs →
      ∀ b ∈ fileBlobs c cfg ft g m bs, BlobFits c.toBlobCodec compress b.1 b.2)
    (h : Stops) (chunks : Nat → Nat) :
    ∃ msg, pbfParse c ft' h ⟨data, chunks⟩ = ([], .threw (.exn msg)) := by
  unfold pbfFile at hw
  obtain ⟨bs, e1, hw'⟩ := except_bind_ok hw
  have hrb := blobs_roundtrip c.toBlobCodec compress (fileBlobs c cfg ft g m bs) data hw'
    (hfit bs e1) chunks
  have hrej : ∃ msg, readHeader ft' (Meta.new ft'.multi) (headerMsg cfg ft g m) = .error (.exn msg) := by
    rcases hft with ⟨rfl, rfl⟩ | ⟨rfl, rfl⟩
    · exact (written_header_rejected cfg g m _).2
    · exact (written_header_rejected cfg g m _).1
  obtain ⟨msg, hrej⟩ := hrej
  refine ⟨msg, ?_⟩
  unfold pbfParse
  rw [hrb]
  have hp : parseBlobs c ft' (Meta.new ft'.multi) .unknown (fileBlobs c cfg ft g m bs) =
      (⟨[], some (.exn msg)⟩, Meta.new ft'.multi, .unknown) := by
    unfold fileBlobs
    rw [parseBlobs, if_neg (by decide), if_pos rfl, c.header_law _ (headerMsg_range cfg ft g m h1 h2)]
    simp only [hrej]
  simp only [hp]
  rfl

/-! ### C61: truncated files -/

/-- However a file is cut off, what is read is the first so many of the blobs written. -/
theorem blobs_truncated_prefix (c : BlobCodec) (compress : Bool) (bs : List (String × Bytes))
    (data : Bytes) (hw : storeBlobs c compress bs = .ok data)
    (hf : ∀ b ∈ bs, BlobFits c compress b.1 b.2) (k : Nat) (chunks : Nat → Nat) :
    ∃ j, (readBlobs c ⟨data.take k, chunks⟩).1 = bs.take j ∧
      ((readBlobs c ⟨data.take k, chunks⟩).2 = none ∨
        ∃ msg, (readBlobs c ⟨data.take k, chunks⟩).2 = some (.exn msg)) := by
  induction bs generalizing data chunks k with
  | nil =>
    cases hw
    rw [List.take_nil, readBlobs_empty]
    exact ⟨0, rfl, Or.inl rfl⟩
  | cons b bs ih =>
    obtain ⟨t, d⟩ := b
    obtain ⟨ws, rest, h1, h2, rfl⟩ := storeBlobs_cons hw
    by_cases hk : k < ws.flatten.length
    · rw [List.take_append_of_le_length (by omega)]
      obtain ⟨e1, e2, e3⟩ := readBlobs_cut h1 (hf (t, d) (by simp)) k hk chunks
      refine ⟨0, e1, ?_⟩
      by_cases h4 : k < 4
      · exact Or.inl (e2 h4)
      · exact Or.inr (e3 (by omega))
    · rw [List.take_append, List.take_of_length_le (by omega)]
      obtain ⟨ch', e⟩ := readBlobs_frame h1 (hf (t, d) (by simp))
        (rest.take (k - ws.flatten.length)) chunks
      obtain ⟨j, e1, e2⟩ := ih rest h2 (fun x hx => hf x (by simp [hx])) (k - ws.flatten.length) ch'
      rw [e]
      exact ⟨j + 1, by rw [List.take_succ_cons, ← e1], e2⟩

theorem forall₂_take {α β : Type} {R : α → β → Prop} {l : List α} {l' : List β}
    (h : List.Forall₂ R l l') (j : Nat) : List.Forall₂ R (l.take j) (l'.take j) := by
  induction h generalizing j with
  | nil => simp
  | cons h _ ih =>
    cases j with
    | zero => simp
    | succ j => simpa using ⟨h, ih j⟩

theorem objects_append (a b : List Cb) : objects (a ++ b) = objects a ++ objects b := by
  simp [objects]

/-- **C61**: if a file written from objects sorted by type is cut off anywhere, the objects read
from it are the first so many of those written, unchanged; then `parse` returns or throws an
exception. -/
theorem pbf_truncated (lib : PbfLib) (c : PbfCodec) (cfg : PbfCfg) (hc : cfg.Exact)
    (compress : Bool) (ft : FileType) (g : String) (m : Meta)
    (h1 : m.bounds.bottomLeft.WF) (h2 : m.bounds.topRight.WF) (os : List OsmObj)
    (ho : ∀ o ∈ os, o.PbfOk) (hs : FewStrings cfg.metadata os) (hsort : SortedByType os)
    (data : Bytes) (hw : pbfFile lib c cfg compress ft g m os = .ok data)
    (hfit : ∀ bs, pbfBlocks lib cfg os = .ok bs →
      ∀ b ∈ fileBlobs c cfg ft g m bs, BlobFits c.toBlobCodec compress b.1 b.2)
    (h : Stops) (hh : ∀ l, h l = false) (k : Nat) (chunks : Nat → Nat) :
    objects (pbfParse c ft h ⟨data.take k, chunks⟩).1 <+: os.map (kept cfg.metadata cfg.addVisible) ∧
    ((pbfParse c ft h ⟨data.take k, chunks⟩).2 = .returned ∨
      ∃ msg, (pbfParse c ft h ⟨data.take k, chunks⟩).2 = .threw (.exn msg)) := by
  obtain ⟨bs, ch, e1, e2, e3⟩ := pbfBlocks_ok lib hc os ⟨ho, hs⟩
  have hr : ∀ b ∈ bs, b.InRange := fun b hb => by
    obtain ⟨_, _, hr⟩ := forall₂_left e3 b hb
    exact hr.1
  have hw' : storeBlobs c.toBlobCodec compress (fileBlobs c cfg ft g m bs) = .ok data := by
    unfold pbfFile at hw
    rw [e1] at hw
    exact hw
  obtain ⟨j, hj, hfail⟩ := blobs_truncated_prefix c.toBlobCodec compress _ data hw' (hfit bs e1) k chunks
  unfold pbfParse
  rcases hrb : readBlobs c.toBlobCodec ⟨data.take k, chunks⟩ with ⟨bl, f⟩
  rw [hrb] at hj hfail
  simp only at hj hfail ⊢
  have oab : ∀ m a b, objects (afterAndBefore m a b) = [] := by
    intro m a b; cases a <;> cases b <;> rfl
  -- the callbacks for the blobs read
  have hev : ∃ ev m' last, parseBlobs c ft (Meta.new ft.multi) .unknown bl = (ev, m', last) ∧
      ev.fail = none ∧ objects ev.calls <+: os.map (kept cfg.metadata cfg.addVisible) := by
    cases j with
    | zero =>
      rw [hj]
      exact ⟨_, _, _, rfl, rfl, List.nil_prefix⟩
    | succ j =>
      have : bl = fileBlobs c cfg ft g m (bs.take j) := by
        rw [hj, fileBlobs, List.take_succ_cons, ← List.map_take]; rfl
      rw [this, parseBlobs_file c cfg ft g m h1 h2 _ (fun b hb => hr b (List.mem_of_mem_take hb))]
      rw [readBlocks_ok (forall₂_take e3 j)]
      refine ⟨_, _, _, rfl, rfl, ?_⟩
      rw [objects_seqCalls]
      rw [show (ch.take j).flatMap regroup = (ch.take j).flatten from ?_]
      · rw [← e2]
        apply List.IsPrefix.map
        conv_rhs => rw [← List.take_append_drop j ch, List.flatten_append]
        exact List.prefix_append _ _
      · apply regroup_chunks_sorted
        refine List.Pairwise.sublist ?_ hsort
        rw [← e2]
        exact (List.take_sublist j ch).flatten
  obtain ⟨ev, m', last, he, hf, hpre⟩ := hev
  rw [he]
  simp only
  rw [no_stop _ _ h hh]
  simp only [Events.seq, hf, List.append_nil]
  rcases hfail with rfl | ⟨msg, rfl⟩
  · simp only [objects_append, oab, List.append_nil]
    exact ⟨by simpa [objects] using hpre, by simp⟩
  · exact ⟨hpre, Or.inr ⟨msg, rfl⟩⟩

/-! ### A concrete library and file -/

open Ser in
/-- Serialisation of header messages. -/
def serHeader : Ser HeaderMsg :=
  iso (prod (list string) (prod (option string) (option (prod int (prod int (prod int int))))))
    (fun h => (h.features, h.program, h.bbox)) (fun p => ⟨p.1, p.2.1, p.2.2⟩) (fun _ => rfl)

open Ser in
def serInfo : Ser PInfo :=
  iso (prod (option bool) (prod int (prod int (prod int (prod int int)))))
    (fun i => (i.visible, i.version, i.timestamp, i.changeset, i.uid, i.userSid))
    (fun p => ⟨p.1, p.2.1, p.2.2.1, p.2.2.2.1, p.2.2.2.2.1, p.2.2.2.2.2⟩) (fun _ => rfl)

open Ser in
def serNode : Ser PNode :=
  iso (prod int (prod (list int) (prod (list int) (prod (option serInfo) (prod int int)))))
    (fun i => (i.id, i.keys, i.vals, i.info, i.lon, i.lat))
    (fun p => ⟨p.1, p.2.1, p.2.2.1, p.2.2.2.1, p.2.2.2.2.1, p.2.2.2.2.2⟩) (fun _ => rfl)

open Ser in
def serWay : Ser PWay :=
  iso (prod int (prod (list int) (prod (list int) (prod (option serInfo) (list int)))))
    (fun i => (i.id, i.keys, i.vals, i.info, i.refs))
    (fun p => ⟨p.1, p.2.1, p.2.2.1, p.2.2.2.1, p.2.2.2.2⟩) (fun _ => rfl)

open Ser in
def serMemType : Ser PMemType :=
  iso nat (fun | .node => 0 | .way => 1 | .relation => 2)
    (fun n => if n = 0 then .node else if n = 1 then .way else .relation)
    (by intro b; cases b <;> rfl)

open Ser in
def serRel : Ser PRel :=
  iso (prod int (prod (list int) (prod (list int) (prod (option serInfo) (prod (list int)
      (prod (list int) (list serMemType)))))))
    (fun i => (i.id, i.keys, i.vals, i.info, i.rolesSid, i.memids, i.types))
    (fun p => ⟨p.1, p.2.1, p.2.2.1, p.2.2.2.1, p.2.2.2.2.1, p.2.2.2.2.2.1, p.2.2.2.2.2.2⟩)
    (fun _ => rfl)

open Ser in
def serDenseInfo : Ser PDenseInfo :=
  iso (prod (list int) (prod (list int) (prod (list int) (prod (list int) (prod (list int)
      (list bool))))))
    (fun i => (i.version, i.timestamp, i.changeset, i.uid, i.userSid, i.visible))
    (fun p => ⟨p.1, p.2.1, p.2.2.1, p.2.2.2.1, p.2.2.2.2.1, p.2.2.2.2.2⟩) (fun _ => rfl)

open Ser in
def serDense : Ser PDense :=
  iso (prod (list int) (prod (list int) (prod (list int) (prod (list int) (option serDenseInfo)))))
    (fun i => (i.id, i.lat, i.lon, i.keysVals, i.info))
    (fun p => ⟨p.1, p.2.1, p.2.2.1, p.2.2.2.1, p.2.2.2.2⟩) (fun _ => rfl)

open Ser in
def serGroup : Ser PGroup :=
  iso (prod (list serNode) (prod (option serDense) (prod (list serWay) (list serRel))))
    (fun i => (i.nodes, i.dense, i.ways, i.relations))
    (fun p => ⟨p.1, p.2.1, p.2.2.1, p.2.2.2⟩) (fun _ => rfl)

open Ser in
def serBlock : Ser PBlock :=
  iso (prod (list string) (prod (list serGroup) (prod int (prod int (prod int int)))))
    (fun i => (i.strings, i.groups, i.granularity, i.dateGranularity, i.latOffset, i.lonOffset))
    (fun p => ⟨p.1, p.2.1, p.2.2.1, p.2.2.2.1, p.2.2.2.2.1, p.2.2.2.2.2⟩) (fun _ => rfl)

/-- A codec that meets the assumptions (it is not the one of the protobuf library). -/
def demoPbfCodec : PbfCodec :=
  { demoCodec with
    encHeader := serHeader.enc
    decHeader := serHeader.decAll
    header_law := fun h _ => Ser.decAll_enc _ h
    encBlock := serBlock.enc
    decBlock := serBlock.decAll
    block_law := fun b _ => Ser.decAll_enc _ b }

/-- Some metadata. -/
def demoMeta : Meta := ⟨⟨⟨100, 200⟩, ⟨300, 400⟩⟩, "test", true⟩

/-- A test for the sizes of all blobs in a file. -/
def blobsFit (c : PbfCodec) (compress : Bool) (bl : List (String × Bytes)) : Bool :=
  bl.all (fun b => b.2.length ≤ 33554432 &&
    match storeBlob c.toBlobCodec compress b.1 b.2 with
    | .ok [_, h, x] => h.length ≤ 65536 && x.length ≤ 33554432
    | _ => false)

theorem blobsFit_spec {c : PbfCodec} {compress : Bool} {bl : List (String × Bytes)}
    (h : blobsFit c compress bl = true) : ∀ b ∈ bl, BlobFits c.toBlobCodec compress b.1 b.2 := by
  intro b hb
  have := List.all_eq_true.1 h b hb
  simp only [Bool.and_eq_true, decide_eq_true_eq] at this
  refine ⟨this.1, ?_⟩
  intro l hd x e
  have h2 := this.2
  rw [e] at h2
  simpa using h2

/-- The conditions of `pbf_file_roundtrip` are met by a file with objects of all types. -/
example :
    let bs := (pbfBlocks demoLib (PbfCfg.default true) demoObjs).toOption.getD []
    bs.length = 1 ∧
    (pbfFile demoLib demoPbfCodec (PbfCfg.default true) true .history "me" demoMeta demoObjs).isOk ∧
    ∀ b ∈ fileBlobs demoPbfCodec (PbfCfg.default true) .history "me" demoMeta bs,
      BlobFits demoPbfCodec.toBlobCodec true b.1 b.2 := by
  refine ⟨by decide +kernel, by decide +kernel, blobsFit_spec ?_⟩
  decide +kernel

/-- ... and evaluating the model gives what the theorem says. -/
example :
    (match pbfFile demoLib demoPbfCodec (PbfCfg.default true) true .history "me" demoMeta demoObjs with
    | .ok data => pbfParse demoPbfCodec .history (fun _ => false) ⟨data, fun _ => 7⟩
    | .error _ => ([], .returned)) =
    (protocol ⟨⟨⟨100, 200⟩, ⟨300, 400⟩⟩, "me", true⟩ (demoObjs.map (kept true true)), .returned) := by
  decide +kernel

end Osmium

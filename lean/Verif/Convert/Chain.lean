import Verif.Convert.Spec
import Verif.Convert.Props
/-
Converting files between the formats, any number of times (C68).
-/
namespace Osmium
open Spec

/-! ### What the formats keep -/

theorem xmlKept_kept (ft : FileType) (o : OsmObj) : xmlKept ft (kept true ft.multi o) = xmlKept ft o := by
  cases o <;> cases ft <;> simp [xmlKept, kept, xmlKeptAttrs, keptAttrs, FileType.multi]

theorem kept_xmlKept (ft : FileType) (o : OsmObj) : kept true ft.multi (xmlKept ft o) = xmlKept ft o := by
  cases o <;> cases ft <;> simp [xmlKept, kept, xmlKeptAttrs, keptAttrs, FileType.multi]

theorem xmlKeptAttrs_idem (ft : FileType) (o : Obj) :
    xmlKeptAttrs ft (xmlKeptAttrs ft o) = xmlKeptAttrs ft o := by
  cases ft <;> simp only [xmlKeptAttrs, Obj.mk.injEq] <;> grind

theorem xmlKept_idem (ft : FileType) (o : OsmObj) : xmlKept ft (xmlKept ft o) = xmlKept ft o := by
  cases o with
  | node n =>
    simp only [xmlKept, xmlKeptAttrs_idem]
    split <;> simp_all [Position.undef, Position.defined]
  | way w => simp [xmlKept, xmlKeptAttrs_idem, Function.comp_def]
  | relation r => simp [xmlKept, xmlKeptAttrs_idem]

theorem kept_idem (ft : FileType) (o : OsmObj) :
    kept true ft.multi (kept true ft.multi o) = kept true ft.multi o := by
  cases o <;> cases ft <;> simp [kept, keptAttrs, FileType.multi]

theorem keptIn_keptIn (ft : FileType) (f g : Fmt) (o : OsmObj) :
    keptIn ft g (keptIn ft f o) = keptIn ft (if f = .xml ∨ g = .xml then .xml else .pbf) o := by
  cases f <;> cases g <;> simp [keptIn, xmlKept_kept, kept_xmlKept, xmlKept_idem, kept_idem]

theorem keptIn_type (ft : FileType) (f : Fmt) (o : OsmObj) : (keptIn ft f o).type = o.type := by
  cases o <;> cases f <;> rfl

theorem keptAttrs_ok {ft : FileType} {o : Obj} (h : XmlAttrsOk o) :
    XmlAttrsOk (keptAttrs true ft.multi o) :=
  ⟨⟨h.wf.id, h.wf.version, h.wf.changeset, h.wf.timestamp, h.wf.uid⟩, h.timestamp, h.user⟩

theorem xmlKeptAttrs_ok {ft : FileType} {o : Obj} (h : XmlAttrsOk o) : XmlAttrsOk (xmlKeptAttrs ft o) := by
  refine ⟨⟨h.wf.id, h.wf.version, h.wf.changeset, h.wf.timestamp, ?_⟩, h.timestamp, ?_⟩
  · show InS32 (if o.uid > 0 then o.uid else -1)
    split
    · exact h.wf.uid
    · decide
  · show (if o.uid > 0 then o.user else "").utf8ByteSize ≤ 1021
    split
    · exact h.user
    · decide

theorem undef_wf : Position.undef.WF := by
  simp only [Position.WF, Position.undef]; decide

theorem keptIn_xmlOk {ft : FileType} (f : Fmt) {o : OsmObj} (h : XmlOk o) : XmlOk (keptIn ft f o) := by
  cases o with
  | node n =>
    cases f with
    | xml =>
      refine ⟨xmlKeptAttrs_ok h.1, ?_⟩
      show (if n.position.defined then n.position else Position.undef).WF
      split
      · exact h.2
      · exact undef_wf
    | pbf => exact ⟨keptAttrs_ok h.1, h.2⟩
  | way w =>
    cases f with
    | xml =>
      refine ⟨xmlKeptAttrs_ok h.1, fun n hn => ?_⟩
      obtain ⟨x, hx, rfl⟩ := List.mem_map.1 hn
      exact h.2 x hx
    | pbf =>
      refine ⟨keptAttrs_ok h.1, fun n hn => ?_⟩
      obtain ⟨x, hx, rfl⟩ := List.mem_map.1 hn
      exact h.2 x hx
  | relation r =>
    cases f with
    | xml => exact ⟨xmlKeptAttrs_ok h.1, h.2⟩
    | pbf => exact ⟨keptAttrs_ok h.1, h.2⟩

theorem keptAttrs_pbfOk {ft : FileType} {o : Obj} (h : o.PbfOk) : (keptAttrs true ft.multi o).PbfOk :=
  ⟨⟨h.wf.id, h.wf.version, h.wf.changeset, h.wf.timestamp, h.wf.uid⟩, h.ts, h.user⟩

theorem xmlKeptAttrs_pbfOk {ft : FileType} {o : Obj} (h : o.PbfOk) : (xmlKeptAttrs ft o).PbfOk := by
  refine ⟨⟨h.wf.id, h.wf.version, h.wf.changeset, h.wf.timestamp, ?_⟩, h.ts, ?_⟩
  · show InS32 (if o.uid > 0 then o.uid else -1)
    split
    · exact h.wf.uid
    · decide
  · show (if o.uid > 0 then o.user else "").utf8ByteSize ≤ 1021
    split
    · exact h.user
    · decide

theorem keptIn_pbfOk {ft : FileType} (f : Fmt) {o : OsmObj} (h : o.PbfOk) : (keptIn ft f o).PbfOk := by
  cases o with
  | node n =>
    cases f with
    | xml =>
      refine ⟨xmlKeptAttrs_pbfOk h.1, h.2.1, ?_⟩
      show (if n.position.defined then n.position else Position.undef).WF
      split
      · exact h.2.2
      · exact undef_wf
    | pbf => exact ⟨keptAttrs_pbfOk h.1, h.2⟩
  | way w =>
    cases f with
    | xml =>
      refine ⟨xmlKeptAttrs_pbfOk h.1, fun n hn => ?_⟩
      obtain ⟨x, hx, rfl⟩ := List.mem_map.1 hn
      exact h.2 x hx
    | pbf =>
      refine ⟨keptAttrs_pbfOk h.1, fun n hn => ?_⟩
      obtain ⟨x, hx, rfl⟩ := List.mem_map.1 hn
      exact h.2 x hx
  | relation r =>
    cases f with
    | xml => exact ⟨xmlKeptAttrs_pbfOk h.1, h.2⟩
    | pbf => exact ⟨keptAttrs_pbfOk h.1, h.2⟩

theorem strings_kept (ft : FileType) (o : OsmObj) :
    Spec.strings true (kept true ft.multi o) = Spec.strings true o := by
  cases o <;> rfl

theorem fewStrings_kept (ft : FileType) (os : List OsmObj) (h : FewStrings true os) :
    FewStrings true (os.map (kept true ft.multi)) := by
  intro c hc hl
  obtain ⟨a, b, hab⟩ := hc
  obtain ⟨x, y, rfl, hx, hy⟩ := List.map_eq_append_iff.1 hab.symm
  obtain ⟨x1, x2, rfl, hx1, hx2⟩ := List.map_eq_append_iff.1 hx
  have := h x2 ⟨x1, y, by simp⟩ (by rw [← hx2] at hl; simpa using hl)
  rw [← hx2, List.flatMap_map]
  simpa [strings_kept] using this

theorem convertible_kept {ft : FileType} {os : List OsmObj} (f : Fmt) (h : Convertible ft os) :
    Convertible ft (os.map (keptIn ft f)) where
  nonempty := by simpa using h.nonempty
  xml := by
    intro o ho
    obtain ⟨x, hx, rfl⟩ := List.mem_map.1 ho
    exact keptIn_xmlOk f (h.xml x hx)
  pbf := by
    intro o ho
    obtain ⟨x, hx, rfl⟩ := List.mem_map.1 ho
    exact keptIn_pbfOk f (h.pbf x hx)
  strings := by
    cases f with
    | xml => exact h.stringsXml
    | pbf => exact fewStrings_kept ft os h.strings
  stringsXml := by
    rw [List.map_map]
    have : (xmlKept ft ∘ keptIn ft f) = xmlKept ft := by
      funext o
      cases f
      · exact xmlKept_idem ft o
      · exact xmlKept_kept ft o
    rw [this]
    exact h.stringsXml
  sorted := by
    have := h.sorted
    unfold SortedByType at this ⊢
    rw [List.pairwise_map]
    simpa [keptIn_type] using this

/-! ### Metadata -/

theorem metaOk_empty (g : String) (b : Bool) : MetaOk ⟨Bounds.empty, g, b⟩ :=
  ⟨undef_wf, undef_wf, by intro h; exact absurd h (show ¬ Bounds.empty.defined = true by decide)⟩

theorem extend_ok {g g' : String} {u u' : Bool} {b : Bounds} (h : MetaOk ⟨b, g, u⟩) (p : Position)
    (hp : p.WF) : MetaOk ⟨b.extend p, g', u'⟩ := by
  obtain ⟨h1, h2, h3⟩ := h
  simp only [Bounds.defined, Position.WF, Bounds.extend] at *
  by_cases hd : b.bottomLeft.defined = true
  · rw [if_pos hd]
    have := h3 hd
    unfold InS32 at *
    refine ⟨⟨?_, ?_⟩, ⟨?_, ?_⟩, fun _ => ⟨?_, ?_⟩⟩ <;> simp only [InS32] <;> grind
  · rw [if_neg hd]
    exact ⟨hp, hp, fun _ => ⟨le_refl _, le_refl _⟩⟩

theorem readMeta_ok (cfg : PbfCfg) (ft : FileType) (g : String) (m : Meta) : MetaOk (readMeta cfg ft g m) := by
  unfold readMeta headerBounds
  split
  · exact metaOk_empty _ _
  · exact extend_ok (extend_ok (metaOk_empty g ft.multi) _
      ⟨wrapS32_in _, wrapS32_in _⟩ (g' := g) (u' := ft.multi)) _
      ⟨wrapS32_in _, wrapS32_in _⟩

theorem xmlReadMeta_ok (ft : FileType) (g : String) {m : Meta} (h : MetaOk m) :
    MetaOk (xmlReadMeta ft g m) := by
  unfold xmlReadMeta
  split
  · exact ⟨h.bl, h.tr, h.order⟩
  · exact metaOk_empty _ _

/-! ### One conversion, and many -/

/-- **C68**, one conversion: the new file contains the objects, up to what the format keeps. -/
theorem convert_step (lib : PbfLib) (c : PbfCodec) (ft : FileType) (fmt : Fmt) (f g : FileData)
    (os : List OsmObj) (hos : Convertible ft os) (hf : HasObjects c ft f os)
    (hc : ConvertedTo lib c ft fmt f g) : HasObjects c ft g (os.map (keptIn ft fmt)) := by
  obtain ⟨m, hm, hr⟩ := hf
  obtain ⟨k, gen, chunks, hg, hfit⟩ := hc.done
  unfold convertFile convert at hg
  rw [hr chunks] at hg
  obtain ⟨a, ha, hg⟩ := except_bind_ok hg
  simp only [pure, Except.pure, Except.ok.injEq] at hg
  subst hg
  cases fmt with
  | xml =>
    unfold writeAs at ha
    obtain ⟨evs, he, ha⟩ := except_bind_ok ha
    simp only [pure, Except.pure, Except.ok.injEq] at ha
    subst ha
    have hw := xmlWrite_eq ft gen m os
    have := xmlOut_protocol ft gen m os _ hw
    rw [this] at he
    simp only [Except.ok.injEq] at he
    subst he
    refine ⟨_, xmlReadMeta_ok ft gen hm, fun _ => ?_⟩
    exact xml_roundtrip ft gen m (fun hd => ⟨hm.bl, hm.tr, hm.order hd⟩) os hos.nonempty hos.xml _ hw _
      (fun _ => rfl)
  | pbf =>
    unfold writeAs at ha
    obtain ⟨data, he, ha⟩ := except_bind_ok ha
    simp only [pure, Except.pure, Except.ok.injEq] at ha
    subst ha
    have hw := pbfOut_protocol lib c _ k ft gen m os data he
    refine ⟨_, readMeta_ok (PbfCfg.default ft.multi) ft gen m, fun ch => ?_⟩
    exact pbf_file_roundtrip lib c (PbfCfg.default ft.multi) ⟨⟨1, rfl⟩, rfl⟩ k ft gen m hm.bl hm.tr os
      hos.nonempty hos.pbf hos.strings hos.sorted data hw
      (fun bs hbs => hfit rfl m os bs (hr chunks) hbs) _ (fun _ => rfl) ch

/-- **C68**: Take any file with objects that both formats can store and convert it, then convert the
result, and so on, any number of times between XML and PBF in any order.  The last file contains
exactly the objects of the first one, in the same order, up to what the formats keep: if XML
is among the formats, what XML keeps, otherwise what PBF keeps. -/
theorem convert_chain_partial (lib : PbfLib) (c : PbfCodec) (ft : FileType) (fs : List Fmt)
    (f g : FileData) (os : List OsmObj) (hos : Convertible ft os) (hf : HasObjects c ft f os)
    (hc : Conversions lib c ft fs f g) (hne : fs ≠ []) :
    HasObjects c ft g (os.map (keptIn ft (if .xml ∈ fs then .xml else .pbf))) := by
  induction hc generalizing os with
  | nil => exact absurd rfl hne
  | @step fmt fs f g h s t ih =>
    have h1 := convert_step lib c ft fmt f g os hos hf s
    by_cases hn : fs = []
    · subst hn
      cases t
      cases fmt <;> simpa using h1
    · have h2 := ih _ (convertible_kept fmt hos) h1 hn
      rw [List.map_map] at h2
      convert h2 using 2
      funext o
      simp only [Function.comp, keptIn_keptIn, List.mem_cons]
      by_cases hx : Fmt.xml ∈ fs <;> cases fmt <;> simp [hx]

/-- **C68**: if the objects are already as an XML file keeps them (for example if they come from an XML
file), nothing at all changes. -/
theorem convert_lossless_partial (lib : PbfLib) (c : PbfCodec) (ft : FileType) (fs : List Fmt)
    (f g : FileData) (os : List OsmObj) (hos : Convertible ft os) (hf : HasObjects c ft f os)
    (hx : ∀ o ∈ os, xmlKept ft o = o) (hc : Conversions lib c ft fs f g) : HasObjects c ft g os := by
  have hk : ∀ fm : Fmt, os.map (keptIn ft fm) = os := by
    intro fm
    conv_rhs => rw [← List.map_id os]
    refine List.map_congr_left fun o ho => ?_
    cases fm with
    | xml => exact hx o ho
    | pbf =>
      have := kept_xmlKept ft o
      rw [hx o ho] at this
      exact this
  by_cases hn : fs = []
  · subst hn; cases hc; exact hf
  · have := convert_chain_partial lib c ft fs f g os hos hf hc hn
    rwa [hk] at this

/-- What is missing in C68: a file without objects.  A reader calls only `final` then, so the XML
output throws an exception ... -/
theorem convert_empty_xml (ft : FileType) (gen : String) (m : Meta) :
    xmlOut ft gen (allCalls m []) = .error (.exn "XMLWriteError") := by
  rw [allCalls_empty]
  cases ft <;> rfl

/-- ... and the PBF output writes an empty file, which has no header. -/
theorem convert_empty_pbf (lib : PbfLib) (c : PbfCodec) (cfg : PbfCfg) (k : Bool) (ft : FileType)
    (gen : String) (m : Meta) : pbfOut lib c cfg k ft gen (allCalls m []) = .ok [] := by
  rw [allCalls_empty]
  rfl

/-! ### A concrete case -/

theorem protocol_injective {m m' : Meta} {os os' : List OsmObj} (h : protocol m os = protocol m' os') :
    m = m' ∧ os = os' := by
  have h2 := congrArg objects h
  rw [objects_protocol, objects_protocol] at h2
  refine ⟨?_, h2⟩
  unfold protocol at h
  simp only [List.cons_append, List.cons.injEq, Cb.init.injEq] at h
  exact h.1

/-- Two objects of the demonstration file, as an XML file keeps them. (data for the examples, no
counterpart in /repo) -/
def cdemoObjs : List OsmObj :=
  [.node ⟨xdemoObj (-5) 3 false, ⟨81234567, -491234567⟩⟩,
   .way ⟨xdemoObj 7 1 true, [{ ref := -5 }, { ref := 9000000000 }, { ref := -5 }]⟩,
   .relation ⟨xdemoObj 8 2 true, [⟨'w', 7, "outer"⟩, ⟨'n', -5, ""⟩]⟩]

theorem cdemo_convertible : Convertible .history cdemoObjs ∧ ∀ o ∈ cdemoObjs, xmlKept .history o = o := by
  have wf : ∀ (id : Int) (v : Nat) (b : Bool), InS64 id → v < 100 → (xdemoObj id v b).WF := by
    intro id v b hid hv
    refine ⟨?_, ?_, ?_, ?_, ?_⟩ <;> simp only [xdemoObj, Obj.new] <;>
      first
        | assumption
        | (simp only [InU32]; omega)
        | decide
  have xa : ∀ (id : Int) (v : Nat) (b : Bool), InS64 id → v < 100 → XmlAttrsOk (xdemoObj id v b) := by
    intro id v b hid hv
    exact ⟨wf id v b hid hv, Or.inr (by simp only [InIsoRange, xdemoObj]; decide),
      by simp only [xdemoObj]; decide⟩
  have pa : ∀ (id : Int) (v : Nat) (b : Bool), InS64 id → v < 100 → (xdemoObj id v b).PbfOk := by
    intro id v b hid hv
    exact ⟨wf id v b hid hv, by simp only [xdemoObj]; decide, by simp only [xdemoObj]; decide⟩
  refine ⟨⟨by decide, ?_, ?_, ?_, ?_, by unfold SortedByType; decide⟩, ?_⟩
  · intro o ho
    simp only [cdemoObjs, List.mem_cons, List.not_mem_nil, or_false] at ho
    rcases ho with rfl | rfl | rfl
    · exact ⟨xa _ _ _ (by decide) (by decide), by decide, by decide⟩
    · exact ⟨xa _ _ _ (by decide) (by decide), by decide⟩
    · exact ⟨xa _ _ _ (by decide) (by decide), by decide⟩
  · intro o ho
    simp only [cdemoObjs, List.mem_cons, List.not_mem_nil, or_false] at ho
    rcases ho with rfl | rfl | rfl
    · exact ⟨pa _ _ _ (by decide) (by decide), by decide, by decide, by decide⟩
    · exact ⟨pa _ _ _ (by decide) (by decide), by decide⟩
    · exact ⟨pa _ _ _ (by decide) (by decide), by decide⟩
  · exact fewStrings_of_total _ _ (le_trans (List.toFinset_card_le _) (by decide))
  · exact fewStrings_of_total _ _ (le_trans (List.toFinset_card_le _) (by decide))
  · decide

/-- The XML file with these objects. (data for the examples, no counterpart in /repo) -/
def cdemoXml : List XEv := (xmlWrite .history "me" demoMeta cdemoObjs).getD []

/-- ... converted to PBF. (data for the examples, no counterpart in /repo) -/
def cdemoPbf : Bytes :=
  match convertFile demoLib demoPbfCodec true .history "me" (fun _ => 7) .pbf (.xml cdemoXml) with
  | .ok (.pbf d) => d
  | _ => []

/-- The blobs of that file fit. -/
theorem cdemo_fits : blobsFit demoPbfCodec true (fileBlobs demoPbfCodec (PbfCfg.default true) .history "me"
    ⟨demoMeta.bounds, "me", true⟩
    ((pbfBlocks demoLib (PbfCfg.default true) cdemoObjs).toOption.getD [])) = true := by decide +kernel

/-- From XML to PBF and back to XML: the hypotheses of `convert_lossless_partial` are met. -/
theorem cdemo_chain : HasObjects demoPbfCodec .history (.xml cdemoXml) cdemoObjs ∧
    Conversions demoLib demoPbfCodec .history [.pbf, .xml] (.xml cdemoXml) (.xml cdemoXml) := by
  have hr : ∀ ch, (FileData.xml cdemoXml).read demoPbfCodec .history ch =
      (protocol ⟨demoMeta.bounds, "me", true⟩ cdemoObjs, .returned) := by
    intro ch
    show xmlParse .history (fun _ => false) ⟨cdemoXml, none⟩ = _
    decide +kernel
  refine ⟨⟨_, ⟨by simp only [Position.WF]; decide, by simp only [Position.WF]; decide, fun _ => by decide⟩, hr⟩, ?_⟩
  have ok : ∀ (x : Res FileData) (a : FileData), x.toOption = some a → x = .ok a := by
    intro x a h
    cases x with
    | error e => cases h
    | ok b => cases h; rfl
  refine .step (g := .pbf cdemoPbf) ⟨true, "me", fun _ => 7, ok _ _ (by decide +kernel), ?_⟩
    (.step ⟨true, "me", fun _ => 7, ok _ _ (by decide +kernel), fun h => by cases h⟩ (.nil _))
  intro _ m os bs h hb
  rw [hr] at h
  obtain ⟨rfl, rfl⟩ := protocol_injective (congrArg Prod.fst h)
  have := blobsFit_spec cdemo_fits
  have e : (pbfBlocks demoLib (PbfCfg.default true) cdemoObjs) = .ok bs := hb
  rw [e] at this
  exact this

end Osmium

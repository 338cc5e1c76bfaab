import Verif.Convert.Chain
import Verif.Pbf.FullReader
import Verif.Xml.ChunksProps

/-!
# Converting a file that cannot be read to its end

`osmium_convert` on a system where calls of `read` fail: the conversion of the whole file, or an exception.  The output handler
is not told about the exception; what it has written so far stays.  (C136)
-/

namespace Osmium

open Spec

/-! ### Model -/

/-- examples/osmium_convert.cpp 118-129: read a PBF file with calls of `read` that may fail, write what is read to another file
of the same type; strings are C strings. -/
def convertPbf (lib : PbfLib) (c : PbfCodec) (compress : Bool) (ft : FileType) (gen : String) (fmt : Fmt) (s : InputE) :
    Res FileData :=
  convert (pbfParseAll (fun _ => false) c ft (fun _ => false) s) (writeAs lib c compress ft gen fmt)

/-- The same for an XML file that the system gives in these portions. (examples/osmium_convert.cpp 118-129) -/
def convertXml {σ : Type} (ex : Expat σ) (lib : PbfLib) (c : PbfCodec) (compress : Bool) (ft : FileType) (gen : String) (fmt : Fmt)
    (reads : List XRead) : Res FileData :=
  convert (xmlParseReads ex ft (fun _ => false) reads) (writeAs lib c compress ft gen fmt)

/-- The state of a handler after the calls, up to the first that throws; simplification: what that call itself has changed
before is left out. (input.hpp 112-119: exceptions other than `StopReading` are not caught) -/
def feedUntil {σ : Type} (step : σ → Cb → Res σ) : σ → List Cb → σ
  | s, [] => s
  | s, cb :: cs =>
    match step s cb with
    | .ok t => feedUntil step t cs
    | .error _ => s

/-- What is in the PBF output file when the program ends, with or without an exception.  The bytes of a blob are written at once
(output/pbf.hpp 348-358), nothing is removed, and there is no `catch` in `main` (examples/osmium_convert.cpp 118-129). -/
def convertLeaves (lib : PbfLib) (c : PbfCodec) (compress : Bool) (ft : FileType) (gen : String) (s : InputE) : Bytes :=
  (feedUntil (PbfOut.step lib c compress ft gen) ⟨Writer.new (PbfCfg.default ft.multi), []⟩
    (pbfParseAll (fun _ => false) c ft (fun _ => false) s).1).data

/-- The same for an XML file as input. (output/pbf.hpp 348-358, examples/osmium_convert.cpp 118-129) -/
def convertXmlLeaves {σ : Type} (ex : Expat σ) (lib : PbfLib) (c : PbfCodec) (compress : Bool) (ft : FileType) (gen : String)
    (reads : List XRead) : Bytes :=
  (feedUntil (PbfOut.step lib c compress ft gen) ⟨Writer.new (PbfCfg.default ft.multi), []⟩
    (xmlParseReads ex ft (fun _ => false) reads).1).data

/-! ### Handlers and the beginning of the calls -/

theorem feed_ok_append {σ : Type} (f : σ → Cb → Res σ) (a b : List Cb) (s : σ) {e : Fail} (h : feed f s a = .error e) :
    feed f s (a ++ b) = .error e := by
  induction a generalizing s with
  | nil => cases h
  | cons x a ih =>
    simp only [List.cons_append, feed] at h ⊢
    cases hx : f s x with
    | error e' => rw [hx] at h; exact h
    | ok t => rw [hx] at h; exact ih t h

/-- An output that fails with the first calls fails in the same way with all calls. -/
theorem writeAs_prefix_error (lib : PbfLib) (c : PbfCodec) (compress : Bool) (ft : FileType) (gen : String) (fmt : Fmt)
    {a b : List Cb} (h : a <+: b) {e : Fail} (he : writeAs lib c compress ft gen fmt a = .error e) :
    writeAs lib c compress ft gen fmt b = .error e := by
  obtain ⟨t, rfl⟩ := h
  cases fmt with
  | xml =>
    simp only [writeAs, xmlOut] at he ⊢
    cases hf : feed (XmlOut.step ft gen) XmlOut.new a with
    | ok x => rw [hf] at he; cases he
    | error e' => rw [hf] at he; rw [feed_ok_append _ a t _ hf]; exact he
  | pbf =>
    simp only [writeAs, pbfOut] at he ⊢
    cases hf : feed (PbfOut.step lib c compress ft gen) ⟨Writer.new (PbfCfg.default ft.multi), []⟩ a with
    | ok x => rw [hf] at he; cases he
    | error e' => rw [hf] at he; rw [feed_ok_append _ a t _ hf]; exact he

theorem feedUntil_prefix {σ : Type} (f : σ → Cb → Res σ) (g : σ → Bytes)
    (hg : ∀ s cb t, f s cb = .ok t → g s <+: g t) (cs : List Cb) (s : σ) : g s <+: g (feedUntil f s cs) := by
  induction cs generalizing s with
  | nil => exact List.prefix_refl _
  | cons x cs ih =>
    unfold feedUntil
    cases hx : f s x with
    | error e => exact List.prefix_refl _
    | ok t => exact (hg s x t hx).trans (ih t)

theorem feedUntil_mono {σ : Type} (f : σ → Cb → Res σ) (g : σ → Bytes)
    (hg : ∀ s cb t, f s cb = .ok t → g s <+: g t) (a b : List Cb) (s : σ) :
    g (feedUntil f s a) <+: g (feedUntil f s (a ++ b)) := by
  induction a generalizing s with
  | nil => exact feedUntil_prefix f g hg b s
  | cons x a ih =>
    simp only [List.cons_append, feedUntil]
    cases hx : f s x with
    | error e => exact List.prefix_refl _
    | ok t => exact ih t

theorem feedUntil_of_feed {σ : Type} (f : σ → Cb → Res σ) (a : List Cb) (s t : σ) (h : feed f s a = .ok t) :
    feedUntil f s a = t := by
  induction a generalizing s with
  | nil => cases h; rfl
  | cons x a ih =>
    simp only [feed, feedUntil] at h ⊢
    cases hx : f s x with
    | error e' => rw [hx] at h; cases h
    | ok u => rw [hx] at h; exact ih u h

theorem emit_grows {c : PbfCodec} {k : Bool} {p q : PbfOut} {w : Writer} (h : p.emit c k w = .ok q) : p.data <+: q.data := by
  unfold PbfOut.emit at h
  obtain ⟨b, _, h⟩ := res_bind h
  cases h
  exact List.prefix_append _ _

/-- The PBF output only appends. -/
theorem pbfStep_grows (lib : PbfLib) (c : PbfCodec) (k : Bool) (ft : FileType) (gen : String) (p : PbfOut) (cb : Cb)
    (q : PbfOut) (h : PbfOut.step lib c k ft gen p cb = .ok q) : p.data <+: q.data := by
  cases cb with
  | init m =>
    obtain ⟨b, _, h⟩ := res_bind h
    cases h
    exact List.prefix_append _ _
  | obj o =>
    simp only [PbfOut.step] at h
    obtain ⟨⟨w, thrown⟩, _, h⟩ := res_bind h
    cases thrown with
    | true => cases h
    | false => exact emit_grows h
  | final =>
    obtain ⟨w, _, h⟩ := res_bind h
    exact emit_grows h
  | before _ => cases h; exact List.prefix_refl _
  | after _ => cases h; exact List.prefix_refl _

/-- A reader that makes the first calls and throws. -/
theorem convert_prefix (lib : PbfLib) (c : PbfCodec) (compress : Bool) (ft : FileType) (gen : String) (fmt : Fmt)
    {r r2 : List Cb × ParseEnd} {e : Fail} (h1 : r.2 = .threw e) (h2 : r.1 <+: r2.1) :
    convert r (writeAs lib c compress ft gen fmt) = convert r2 (writeAs lib c compress ft gen fmt) ∨
    convert r (writeAs lib c compress ft gen fmt) = .error e := by
  obtain ⟨a, ea⟩ := r
  obtain ⟨b, eb⟩ := r2
  simp only at h1 h2
  subst h1
  unfold convert
  cases hw : writeAs lib c compress ft gen fmt a with
  | error e =>
    left
    rw [writeAs_prefix_error lib c compress ft gen fmt h2 hw]
    rfl
  | ok x => exact .inr rfl

/-! ### The theorems -/

/-- **C136.**  Whatever is in the PBF file, whichever format the output has and whichever calls of `read` fail: the conversion gives
what it gives when no call fails (a file or an exception), or it ends with the exception for a failed `read`. -/
theorem convert_read_failure (lib : PbfLib) (c : PbfCodec) (compress : Bool) (ft : FileType) (gen : String) (fmt : Fmt)
    (data : Bytes) (reads whole : Nat → Option Nat) (hwhole : ∀ i, whole i ≠ none) :
    convertPbf lib c compress ft gen fmt ⟨data, reads⟩ = convertPbf lib c compress ft gen fmt ⟨data, whole⟩ ∨
    ∃ msg ∈ Spec.readFailures, convertPbf lib c compress ft gen fmt ⟨data, reads⟩ = .error (.exn msg) := by
  unfold convertPbf
  rcases pbf_all_read_errors (fun _ => false) c ft (fun _ => false) data reads whole hwhole with h | ⟨⟨msg, hm, h1⟩, h2⟩
  · left; rw [h]
  · rcases convert_prefix lib c compress ft gen fmt h1 h2 with h | h
    · exact .inl h
    · exact .inr ⟨msg, hm, h⟩

/-- **C136.**  A conversion that ends without exception has converted the whole file. -/
theorem convert_done_whole (lib : PbfLib) (c : PbfCodec) (compress : Bool) (ft : FileType) (gen : String) (fmt : Fmt)
    (data : Bytes) (reads whole : Nat → Option Nat) (hwhole : ∀ i, whole i ≠ none) (g : FileData)
    (h : convertPbf lib c compress ft gen fmt ⟨data, reads⟩ = .ok g) :
    convertPbf lib c compress ft gen fmt ⟨data, whole⟩ = .ok g := by
  rcases convert_read_failure lib c compress ft gen fmt data reads whole hwhole with h1 | ⟨msg, _, h1⟩
  · rw [← h1, h]
  · rw [h] at h1; cases h1

/-- **C136.**  The same for XML files, with any parser for XML that makes its events as the bytes come: `ps` are portions of the
beginning of a file, `qs` portions of the whole file.  If a call of `read` fails after `ps`, or if the file is cut there, the
conversion gives what it gives for the whole file, or an exception. -/
theorem convert_xml_failure {σ : Type} (ex : Expat σ) (hx : Streaming ex) (lib : PbfLib) (c : PbfCodec) (compress : Bool)
    (ft : FileType) (gen : String) (fmt : Fmt) (ps qs : List (List UInt8)) (hp : Portions ps) (hq : Portions qs)
    (hpq : ps.flatten <+: qs.flatten) (rest rest2 : List XRead) :
    (convertXml ex lib c compress ft gen fmt (ps.map .data ++ .failed :: rest) =
        convertXml ex lib c compress ft gen fmt (qs.map .data ++ .data [] :: rest2) ∨
      convertXml ex lib c compress ft gen fmt (ps.map .data ++ .failed :: rest) = .error (.exn "read error")) ∧
    ((document ex ps.flatten).2 = false →
      convertXml ex lib c compress ft gen fmt (ps.map .data ++ .data [] :: rest) =
        convertXml ex lib c compress ft gen fmt (qs.map .data ++ .data [] :: rest2) ∨
      convertXml ex lib c compress ft gen fmt (ps.map .data ++ .data [] :: rest) = .error (.exn "XML parsing error")) := by
  obtain ⟨missing, hm⟩ := hpq
  have hw := xml_any_portions ex hx ft (fun _ => false) qs hq rest2
  rw [← hm] at hw
  unfold convertXml
  rw [hw]
  refine ⟨?_, fun hcut => ?_⟩
  · rcases xml_read_fails ex hx ft (fun _ => false) ps hp rest missing with h | ⟨h1, h2⟩
    · left; rw [h]
    · exact convert_prefix lib c compress ft gen fmt h1 h2
  · rcases xml_cut_file ex hx ft (fun _ => false) ps hp rest missing hcut with h | ⟨h1, h2⟩
    · left; rw [h]
    · exact convert_prefix lib c compress ft gen fmt h1 h2

/-- **C136.**  What is left in a PBF output file, however the program ends, is the beginning of the file it leaves when no call of
`read` fails. -/
theorem convert_leaves_prefix (lib : PbfLib) (c : PbfCodec) (compress : Bool) (ft : FileType) (gen : String)
    (data : Bytes) (reads whole : Nat → Option Nat) (hwhole : ∀ i, whole i ≠ none) :
    convertLeaves lib c compress ft gen ⟨data, reads⟩ <+: convertLeaves lib c compress ft gen ⟨data, whole⟩ := by
  unfold convertLeaves
  rcases pbf_all_read_errors (fun _ => false) c ft (fun _ => false) data reads whole hwhole with h | ⟨_, h2⟩
  · rw [h]
  · obtain ⟨t, ht⟩ := h2
    rw [← ht]
    exact feedUntil_mono _ PbfOut.data (pbfStep_grows lib c compress ft gen) _ t _

/-- **C136.**  The same for XML files as input. -/
theorem convert_xml_leaves_prefix {σ : Type} (ex : Expat σ) (hx : Streaming ex) (lib : PbfLib) (c : PbfCodec) (compress : Bool)
    (ft : FileType) (gen : String) (ps qs : List (List UInt8)) (hp : Portions ps) (hq : Portions qs)
    (hpq : ps.flatten <+: qs.flatten) (rest rest2 : List XRead) :
    convertXmlLeaves ex lib c compress ft gen (ps.map .data ++ .failed :: rest) <+:
      convertXmlLeaves ex lib c compress ft gen (qs.map .data ++ .data [] :: rest2) ∧
    ((document ex ps.flatten).2 = false →
      convertXmlLeaves ex lib c compress ft gen (ps.map .data ++ .data [] :: rest) <+:
        convertXmlLeaves ex lib c compress ft gen (qs.map .data ++ .data [] :: rest2)) := by
  obtain ⟨missing, hm⟩ := hpq
  have hw := xml_any_portions ex hx ft (fun _ => false) qs hq rest2
  rw [← hm] at hw
  unfold convertXmlLeaves
  rw [hw]
  refine ⟨?_, fun hcut => ?_⟩
  · rcases xml_read_fails ex hx ft (fun _ => false) ps hp rest missing with h | ⟨_, t, ht⟩
    · rw [h]
    · rw [← ht]
      exact feedUntil_mono _ PbfOut.data (pbfStep_grows lib c compress ft gen) _ t _
  · rcases xml_cut_file ex hx ft (fun _ => false) ps hp rest missing hcut with h | ⟨_, t, ht⟩
    · rw [h]
    · rw [← ht]
      exact feedUntil_mono _ PbfOut.data (pbfStep_grows lib c compress ft gen) _ t _

/-- **C136.**  A conversion of an XML file that succeeds leaves the file it gives. -/
theorem convert_xml_leaves_done {σ : Type} (ex : Expat σ) (lib : PbfLib) (c : PbfCodec) (compress : Bool) (ft : FileType)
    (gen : String) (reads : List XRead) (out : Bytes) (h : convertXml ex lib c compress ft gen .pbf reads = .ok (.pbf out)) :
    convertXmlLeaves ex lib c compress ft gen reads = out := by
  unfold convertXml convert at h
  obtain ⟨x, h1, h⟩ := res_bind h
  simp only [writeAs, pbfOut] at h1
  obtain ⟨y, h2, h1⟩ := res_bind h1
  obtain ⟨p, h3, h2⟩ := res_bind h2
  cases h2
  cases h1
  unfold convertXmlLeaves
  rw [feedUntil_of_feed _ _ _ _ h3]
  cases he : (xmlParseReads ex ft (fun _ => false) reads).2 with
  | returned => rw [he] at h; cases h; rfl
  | threw e => rw [he] at h; cases h

/-- **C136.**  A conversion that succeeds leaves the file it gives. -/
theorem convert_leaves_done (lib : PbfLib) (c : PbfCodec) (compress : Bool) (ft : FileType) (gen : String) (s : InputE)
    (out : Bytes) (h : convertPbf lib c compress ft gen .pbf s = .ok (.pbf out)) :
    convertLeaves lib c compress ft gen s = out := by
  unfold convertPbf convert at h
  obtain ⟨x, h1, h⟩ := res_bind h
  simp only [writeAs, pbfOut] at h1
  obtain ⟨y, h2, h1⟩ := res_bind h1
  obtain ⟨p, h3, h2⟩ := res_bind h2
  cases h2
  cases h1
  unfold convertLeaves
  rw [feedUntil_of_feed _ _ _ _ h3]
  cases he : (pbfParseAll (fun _ => false) c ft (fun _ => false) s).2 with
  | returned => rw [he] at h; cases h; rfl
  | threw e => rw [he] at h; cases h

/-- A file with objects without NULs, read by the reader with everything. -/
theorem hasObjects_all {c : PbfCodec} {ft : FileType} {data : Bytes} {m : Meta} {os : List OsmObj}
    (hr : ∀ chunks, (FileData.pbf data).read c ft chunks = (protocol m os, .returned)) (hnul : ∀ o ∈ os, NoNulObj o)
    (whole : Nat → Option Nat) (hwhole : ∀ i, whole i ≠ none) :
    pbfParseAll (fun _ => false) c ft (fun _ => false) ⟨data, whole⟩ = (protocol m os, .returned) := by
  rw [pbf_all_none c ft (fun _ => false) data whole hwhole (fun _ => 0), pbfParseC_of_returned (fun _ => rfl) (hr (fun _ => 0))]
  refine Prod.ext ?_ rfl
  simp only
  apply map_self
  intro cb hcb
  cases cb with
  | obj o =>
    have hk : o ∈ os := by
      rw [← objects_protocol m os]
      exact List.mem_filterMap.2 ⟨_, hcb, rfl⟩
    simp only [cutCb]
    rw [cutObj_of_noNul (hnul o hk)]
  | _ => rfl

/-- **C136.**  Take any PBF file with objects that both formats can store, without NULs, on a system where any calls of `read` fail.
If the conversion ends without exception, the new file contains all objects of the old one, in the same order, up to what the format
keeps.  (`hfit`: if the new file is a PBF file, its blobs are not larger than the format allows.) -/
theorem convert_failing_system_partial (lib : PbfLib) (c : PbfCodec) (ft : FileType) (fmt : Fmt) (compress : Bool) (gen : String)
    (data : Bytes) (os : List OsmObj) (hos : Convertible ft os) (hnul : ∀ o ∈ os, NoNulObj o)
    (hf : HasObjects c ft (.pbf data) os) (reads : Nat → Option Nat) (g : FileData)
    (hg : convertPbf lib c compress ft gen fmt ⟨data, reads⟩ = .ok g)
    (hfit : fmt = .pbf → ∀ m bs, pbfBlocks lib (PbfCfg.default ft.multi) os = .ok bs →
      ∀ b ∈ fileBlobs c (PbfCfg.default ft.multi) ft gen m bs, BlobFits c.toBlobCodec compress b.1 b.2) :
    HasObjects c ft g (os.map (keptIn ft fmt)) := by
  have hr := hf
  obtain ⟨m, hm, hr⟩ := hr
  have hd := convert_done_whole lib c compress ft gen fmt data reads (fun _ => some 0) (fun _ => by simp) g hg
  refine convert_step lib c ft fmt (.pbf data) g os hos hf ⟨compress, gen, fun _ => 0, ?_, ?_⟩
  · unfold convertPbf at hd
    rw [hasObjects_all hr hnul (fun _ => some 0) (fun _ => by simp)] at hd
    unfold convertFile
    rw [hr]
    exact hd
  · intro hp m' os' bs h1 hbs
    rw [hr] at h1
    obtain ⟨rfl, rfl⟩ := protocol_injective (congrArg Prod.fst h1)
    exact hfit hp m bs hbs

/-- The conversion of the file of the example in FileProps.lean when the call of `read` with the number `k` fails. (data for the
examples, no counterpart in /repo) -/
def demoConvertInput (k : Nat) : InputE :=
  match pbfFile demoLib demoPbfCodec (PbfCfg.default true) true .history "me" demoMeta demoObjs with
  | .ok data => ⟨data, failsAt k⟩
  | .error _ => ⟨[], failsAt k⟩

/-- **C136.**  Disagreement: a conversion that fails leaves a PBF file that does not look incomplete: it is read without an exception,
as a file with fewer objects. -/
theorem convert_leaves_looks_whole :
    ∃ (lib : PbfLib) (c : PbfCodec) (s : InputE) (os : List OsmObj), os ≠ [] ∧
      objects (pbfParseAll (fun _ => false) c .history (fun _ => false) ⟨s.data, fun _ => some 0⟩).1 = os ∧
      convertPbf lib c true .history "osmium_convert" .pbf s = .error (.exn "read error") ∧
      convertLeaves lib c true .history "osmium_convert" s ≠ [] ∧
      pbfParseAll (fun _ => false) c .history (fun _ => false)
        ⟨convertLeaves lib c true .history "osmium_convert" s, fun _ => some 0⟩ = ([.final], .returned) := by
  have err : ∀ (x : Res FileData) (m : String), (match x with | .error (.exn m') => m' == m | _ => false) = true →
      x = .error (.exn m) := by
    intro x m h
    split at h
    · rw [eq_of_beq h]
    · cases h
  exact ⟨demoLib, demoPbfCodec, demoConvertInput 6, demoObjs.map (kept true true), by decide, by decide +kernel,
    err _ _ (by decide +kernel), by decide +kernel, by decide +kernel⟩

/-- The same file without failing calls is converted, to both formats; the hypothesis of `convert_done_whole` and
`convert_leaves_done`. -/
example :
    (convertPbf demoLib demoPbfCodec true .history "osmium_convert" .pbf (demoConvertInput 7)).toOption =
      some (.pbf (convertLeaves demoLib demoPbfCodec true .history "osmium_convert" (demoConvertInput 7))) ∧
    (convertPbf demoLib demoPbfCodec true .history "osmium_convert" .xml (demoConvertInput 7)).toOption.isSome = true ∧
    convertLeaves demoLib demoPbfCodec true .history "osmium_convert" (demoConvertInput 6) ≠
      convertLeaves demoLib demoPbfCodec true .history "osmium_convert" (demoConvertInput 7) := by
  decide +kernel

/-- The hypotheses of `convert_failing_system_partial` are met by the PBF file of Convert/Chain.lean, converted to XML. -/
example : Convertible .history cdemoObjs ∧ (∀ o ∈ cdemoObjs, NoNulObj o) ∧
    HasObjects demoPbfCodec .history (.pbf cdemoPbf) cdemoObjs ∧
    (convertPbf demoLib demoPbfCodec true .history "osmium_convert" .xml ⟨cdemoPbf, failsAt 100⟩).toOption.isSome = true := by
  refine ⟨cdemo_convertible.1, ?_, ?_, by decide +kernel⟩
  · simp [NoNulObj, NoNul, cdemoObjs, xdemoObj, OsmObj.obj, Obj.new]
  · refine ⟨⟨demoMeta.bounds, "me", true⟩,
      ⟨by simp only [Position.WF]; decide, by simp only [Position.WF]; decide, fun _ => by decide⟩, fun chunks => ?_⟩
    show pbfParse demoPbfCodec .history (fun _ => false) ⟨cdemoPbf, chunks⟩ = _
    rw [(pbf_pieces (fun _ => false) demoPbfCodec .history (fun _ => false) cdemoPbf chunks (fun _ => 7)).1]
    decide +kernel

/-- The hypotheses of `convert_xml_failure` with the parser of Xml/ChunksProps.lean: a document with two nodes, cut inside the second
one; it can be converted as a whole. -/
example : Streaming toyExpat ∧ Portions [[1, 2], [3, 2]] ∧ Portions [[1, 2, 3], [2, 3, 4]] ∧
    [[1, 2], [3, 2]].flatten <+: [[1, 2, 3], [2, 3, (4 : UInt8)]].flatten ∧ (document toyExpat [1, 2, 3, 2]).2 = false ∧
    (convertXml toyExpat demoLib demoPbfCodec true .osm "osmium_convert" .pbf [.data [1, 2, 3], .data [2, 3, 4], .data []]).toOption.isSome
      = true ∧
    (convertXml toyExpat demoLib demoPbfCodec true .osm "osmium_convert" .pbf [.data [1, 2], .data [3, 2], .failed]).toOption = none ∧
    (convertXml toyExpat demoLib demoPbfCodec true .osm "osmium_convert" .pbf [.data [1, 2], .data [3, 2], .data []]).toOption = none := by
  refine ⟨toy_streaming, by simp [Portions], by simp [Portions], ?_⟩
  decide +kernel

/-- What is left of the same conversion: something, but not all. -/
example :
    convertXmlLeaves toyExpat demoLib demoPbfCodec true .osm "osmium_convert" [.data [1, 2], .data [3, 2], .failed] ≠ [] ∧
    convertXmlLeaves toyExpat demoLib demoPbfCodec true .osm "osmium_convert" [.data [1, 2], .data [3, 2], .failed] ≠
      convertXmlLeaves toyExpat demoLib demoPbfCodec true .osm "osmium_convert" [.data [1, 2, 3], .data [2, 3, 4], .data []] ∧
    (convertXml toyExpat demoLib demoPbfCodec true .osm "osmium_convert" .pbf [.data [1, 2, 3], .data [2, 3, 4], .data []]).toOption =
      some (.pbf (convertXmlLeaves toyExpat demoLib demoPbfCodec true .osm "osmium_convert"
        [.data [1, 2, 3], .data [2, 3, 4], .data []])) := by
  decide +kernel

end Osmium

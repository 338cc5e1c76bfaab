import Verif.Examples.ConvertMain
import Verif.Convert.Chain

/-
Property C98: osmium_convert converts the file it is told to, and touches nothing else.
-/
namespace Osmium
open Spec

namespace Spec

/-- Standard input or output. -/
def IsStd (name : List Char) : Prop := name = [] ∨ name = "-".toList

instance (name : List Char) : Decidable (IsStd name) := by unfold IsStd; infer_instance

/-- Whether an encoding is a compressed one. -/
def Compressed (e : FileEncoding) : Prop := e = .xmlgz ∨ e = .xmlbz2

instance (e : FileEncoding) : Decidable (Compressed e) := by unfold Compressed; infer_instance

/-- The formats given with `-f`, and those given with `-t`. -/
def formatsIn (opts : List ConvOpt) : List (List Char) :=
  opts.filterMap fun | .fromFormat f => some f | _ => none
@[inherit_doc formatsIn]
def formatsOut (opts : List ConvOpt) : List (List Char) :=
  opts.filterMap fun | .toFormat f => some f | _ => none

/-- The name of the input and of the output. -/
def inName (args : List (List Char)) : List Char := args.headD []
@[inherit_doc inName]
def outName (args : List (List Char)) : List Char := (args.drop 1).headD []

/-- The format of a file: the last one given, otherwise the one of the name. -/
def formatFor (given : List (List Char)) (name : List Char) : FileType × FileEncoding :=
  match given.getLast? with
  | some f => (knownSuffixes.lookup f).getD (.osm, .pbf)
  | none => settingsOf name

/-- What is in the file with this name, uncompressed. -/
def inputData {α : Type} (T : ConvTools α) (d : Disk α) (name : List Char) (e : FileEncoding) : Option α :=
  let raw := if IsStd name then some d.stdin else if IsUrl name then some (d.web name) else d.files name
  raw.map fun x => if Compressed e then T.unpack e (some x) else x

/-- The name has the documented type and encoding (see C49: not `http`, `osm` and such). -/
def PlainName (name : List Char) : Prop :=
  name ≠ "http".toList ∧ name ≠ "https".toList ∧ (name ∉ knownSuffixes.map Prod.fst ∨ '.' ∈ lastComponent name)

instance (name : List Char) : Decidable (PlainName name) := by unfold PlainName; infer_instance

/-- The data is in the output, and nothing else has changed. -/
structure WrittenTo {α : Type} (T : ConvTools α) (d d' : Disk α) (name : List Char) (e : FileEncoding) (y : α) : Prop where
  file : ¬ IsStd name → d'.files name = some (if Compressed e then T.pack e y else y) ∧ d'.stdout = d.stdout
  std : IsStd name → d'.stdout = some y ∧ ∀ n, d'.files n = d.files n
  others : ∀ n, n ≠ name → d'.files n = d.files n

end Spec

theorem convOptions_good (opts : List ConvOpt) (h : ∀ o ∈ opts, o ≠ .help ∧ o ≠ .bad) (v : ConvVars) :
    ∃ b, convOptions v opts =
      .ok ⟨b, ((formatsIn opts).getLast?).getD v.inputFormat, ((formatsOut opts).getLast?).getD v.outputFormat⟩ := by
  induction opts generalizing v with
  | nil => exact ⟨v.debug, rfl⟩
  | cons o os ih =>
    have hos := fun o ho => h o (List.mem_cons_of_mem _ ho)
    have h0 := h o (List.mem_cons_self ..)
    cases o with
    | debug => exact ih hos _
    | help => exact absurd rfl h0.1
    | bad => exact absurd rfl h0.2
    | fromFormat f =>
      obtain ⟨b, e⟩ := ih hos { v with inputFormat := f }
      refine ⟨b, ?_⟩
      rw [convOptions, e]
      simp only [formatsIn, formatsOut, List.filterMap_cons, List.getLast?_cons, Option.getD_some]
    | toFormat f =>
      obtain ⟨b, e⟩ := ih hos { v with outputFormat := f }
      refine ⟨b, ?_⟩
      rw [convOptions, e]
      simp only [formatsIn, formatsOut, List.filterMap_cons, List.getLast?_cons, Option.getD_some]

theorem convNames_eq (args : List (List Char)) (h : args.length ≤ 2) :
    convNames args = some (inName args, outName args) := by
  match args, h with
  | [], _ => rfl
  | [_], _ => rfl
  | [_, _], _ => rfl
  | _ :: _ :: _ :: _, h => simp at h

/-- (helper) A file as the program sees it. -/
theorem file_for (given : List (List Char)) (name : List Char) (hg : ∀ f ∈ given, f ∈ knownSuffixes.map Prod.fst)
    (hn : PlainName name) :
    (if (given.getLast?).getD [] = [] then FileInfo.ofName name
      else (FileInfo.ofName name).setTypeAndEncoding ((given.getLast?).getD [])) =
    ⟨(formatFor given name).1, (formatFor given name).2, if IsStd name then [] else name⟩ := by
  have hname : (if name = "-".toList then ([] : List Char) else name) = if IsStd name then [] else name := by
    by_cases h1 : name = []
    · subst h1; rfl
    · by_cases h2 : name = "-".toList
      · have h3 : IsStd name := .inr h2
        simp only [h2, h3, if_true]
        subst h2
        rfl
      · have h3 : ¬ IsStd name := by rintro (h | h); exacts [h1 h, h2 h]
        rw [if_neg h2, if_neg h3]
  rw [file_settings_partial name hn.1 hn.2.1 hn.2.2, hname]
  unfold formatFor
  cases e : given.getLast? with
  | none => rfl
  | some f =>
    have hf := hg f (List.mem_of_getLast? e)
    have hne : f ≠ [] := by
      rintro rfl
      revert hf
      decide
    rw [Option.getD_some, if_neg hne, FileInfo.setTypeAndEncoding, typeAndEncoding_eq]

/-- **C98**: With known formats and at most two names the program does what it is told: the file with the given name (or
standard input) is read in the format given last with `-f`, otherwise that of its name, and what the output handler
makes of it is in the output file (or standard output) in the format given last with `-t`, otherwise that of its name.
Nothing else is changed, the program ends without error, and there is a warning just if the types are different.
(Partial: the input exists and is another file than the output, and compressed data is in named files:
see `convert_destroys_output`, `convert_same_file`, `convert_compressed_std`; unknown formats: `convert_unknown_format`.) -/
theorem convert_program_partial {α : Type} (T : ConvTools α) (opts : List ConvOpt) (args : List (List Char)) (d : Disk α)
    (ho : ∀ o ∈ opts, o ≠ .help ∧ o ≠ .bad)
    (hfi : ∀ f ∈ formatsIn opts, f ∈ knownSuffixes.map Prod.fst)
    (hfo : ∀ f ∈ formatsOut opts, f ∈ knownSuffixes.map Prod.fst)
    (ha : args.length ≤ 2) (hni : PlainName (inName args)) (hno : PlainName (outName args))
    (ti tu : FileType) (ei eo : FileEncoding)
    (hti : formatFor (formatsIn opts) (inName args) = (ti, ei))
    (hto : formatFor (formatsOut opts) (outName args) = (tu, eo))
    (hci : Compressed ei → ¬ IsStd (inName args) ∧ ¬ IsUrl (inName args))
    (hco : Compressed eo → ¬ IsStd (outName args))
    (hdiff : inName args = outName args → IsStd (inName args))
    (hwr : ¬ IsStd (outName args) → d.writable (outName args) = true)
    (x y : α) (cs : List Cb) (hx : inputData T d (inName args) ei = some x)
    (hp : T.parse ti (ei = .pbf) x = (cs, .returned)) (hs : T.store tu (eo = .pbf) cs = (y, .ok ())) :
    (convMain T opts args d).ended = .exit 0 ∧
    ((convMain T opts args d).warnings = [] ↔ ti = tu) ∧
    WrittenTo T d (convMain T opts args d).disk (outName args) eo y := by
  obtain ⟨b, e⟩ := convOptions_good opts ho ⟨false, [], []⟩
  have e1 := file_for (formatsIn opts) (inName args) hfi hni
  have e2 := file_for (formatsOut opts) (outName args) hfo hno
  rw [hti] at e1
  rw [hto] at e2
  have hmain : convMain T opts args d = convRun T ⟨ti, ei, if IsStd (inName args) then [] else inName args⟩
      ⟨tu, eo, if IsStd (outName args) then [] else outName args⟩ d := by
    unfold convMain
    rw [e, convNames_eq args ha]
    simp only
    rw [e1, e2]
  rw [hmain]
  have hurl : ¬ IsStd (inName args) → ((fileProtocol (inName args) = "http".toList ∨
      fileProtocol (inName args) = "https".toList) ↔ IsUrl (inName args)) := by
    intro _
    rw [fileProtocol_eq _ _ (by decide +kernel), fileProtocol_eq _ _ (by decide +kernel)]
    unfold IsUrl
    simp only [hni.1, hni.2.1, or_false]
    exact Iff.rfl
  -- the input, whatever has happened to other files
  have hin : ∀ files : List Char → Option α, (¬ IsStd (inName args) → files (inName args) = d.files (inName args)) →
      openInput T { d with files := files } ⟨ti, ei, if IsStd (inName args) then [] else inName args⟩ = some x := by
    intro files hf
    unfold openInput
    simp only
    unfold inputData at hx
    by_cases hc : ei = .xmlgz ∨ ei = .xmlbz2
    · have hcc : Compressed ei := hc
      obtain ⟨n1, n2⟩ := hci hcc
      simp only [n1, n2, hcc, if_false, if_true] at hx
      rw [if_pos hc, if_neg n1, hf n1]
      cases hfile : d.files (inName args) with
      | none => rw [hfile] at hx; cases hx
      | some z => rw [hfile] at hx; exact hx
    · rw [if_neg hc]
      have hcc : ¬ Compressed ei := hc
      by_cases n1 : IsStd (inName args)
      · simp only [n1, if_true, hcc, if_false, Option.map_some] at hx ⊢
        rw [if_neg (by decide)]
        exact hx
      · have hu := hurl n1
        simp only [n1, hcc, if_false] at hx ⊢
        by_cases n2 : IsUrl (inName args)
        · rw [if_pos (hu.2 n2)]
          rw [if_pos n2] at hx
          exact hx
        · rw [if_neg (fun h => n2 (hu.1 h)), if_neg (fun h => n1 (.inl h)), hf n1]
          rw [if_neg n2] at hx
          simpa using hx
  have hwarn : convWarnings ti tu = [] ↔ ti = tu := by
    cases ti <;> cases tu <;> simp [convWarnings]
  by_cases so : IsStd (outName args)
  · have hc : ¬ (eo = .xmlgz ∨ eo = .xmlbz2) := fun h => hco h so
    have hopen : openOutput T d ⟨tu, eo, if IsStd (outName args) then [] else outName args⟩ = some d := by
      unfold openOutput
      simp only [so, if_true]
      rw [if_pos ⟨trivial, hc⟩]
    have := hin d.files (fun _ => rfl)
    unfold convRun
    rw [hopen]
    simp only
    rw [show openInput T d _ = some x from this]
    simp only
    rw [hp]
    simp only
    rw [hs]
    refine ⟨rfl, hwarn, ?_, ?_, ?_⟩
    · intro h; exact absurd so h
    · intro _
      simp only [written, if_neg hc, so, if_true]
      exact ⟨trivial, fun _ => trivial⟩
    · intro n _
      simp only [written, if_neg hc, so, if_true]
  · have hwr := hwr so
    have hne : outName args ≠ [] := fun h => so (.inl h)
    have hopen : openOutput T d ⟨tu, eo, if IsStd (outName args) then [] else outName args⟩ =
        some { d with files := Function.update d.files (outName args) (some T.empty) } := by
      unfold openOutput
      simp only [so, if_false]
      rw [if_neg (fun h => hne h.1), if_pos ⟨hne, hwr⟩]
    have := hin (Function.update d.files (outName args) (some T.empty)) (fun n1 => by
      rw [Function.update_of_ne]
      intro h
      exact n1 (hdiff h))
    unfold convRun
    rw [hopen]
    simp only
    rw [this]
    simp only
    rw [hp]
    simp only
    rw [hs]
    refine ⟨rfl, hwarn, ?_, ?_, ?_⟩
    · intro _
      by_cases hc : eo = .xmlgz ∨ eo = .xmlbz2
      · have hcc : Compressed eo := hc
        simp [written, hc, so, hcc]
      · have hcc : ¬ Compressed eo := hc
        simp [written, hc, so, hcc, hne]
    · intro h; exact absurd h so
    · intro n hn
      by_cases hc : eo = .xmlgz ∨ eo = .xmlbz2
      · simp [written, hc, so, hn]
      · simp [written, hc, so, hne, hn]

/-- **C98**: the program ends without error only if it could write to the output, and the input was read to its end, and
the output handler stored all of it: all errors are reported.  If the output cannot be written, nothing is changed.
(Any data `x` is possible here: for which data this is see `convert_program_partial`.) -/
theorem convert_reports_errors {α : Type} (T : ConvTools α) (opts : List ConvOpt) (args : List (List Char)) (d : Disk α)
    (ho : ∀ o ∈ opts, o ≠ .help ∧ o ≠ .bad)
    (hfi : ∀ f ∈ formatsIn opts, f ∈ knownSuffixes.map Prod.fst)
    (hfo : ∀ f ∈ formatsOut opts, f ∈ knownSuffixes.map Prod.fst)
    (hni : PlainName (inName args)) (hno : PlainName (outName args))
    (ti tu : FileType) (ei eo : FileEncoding)
    (hti : formatFor (formatsIn opts) (inName args) = (ti, ei))
    (hto : formatFor (formatsOut opts) (outName args) = (tu, eo)) :
    ((convMain T opts args d).ended = .exit 0 →
      args.length ≤ 2 ∧ (¬ IsStd (outName args) → d.writable (outName args) = true) ∧
      ∃ x cs y, T.parse ti (ei = .pbf) x = (cs, .returned) ∧ T.store tu (eo = .pbf) cs = (y, .ok ())) ∧
    (¬ IsStd (outName args) → d.writable (outName args) = false → (convMain T opts args d).disk = d) := by
  obtain ⟨b, e⟩ := convOptions_good opts ho ⟨false, [], []⟩
  by_cases ha : args.length ≤ 2
  swap
  · have : convNames args = none := by
      match args, ha with
      | [], h => simp at h
      | [_], h => simp at h
      | [_, _], h => simp at h
      | _ :: _ :: _ :: _, _ => rfl
    have hm : convMain T opts args d = ⟨.exit 1, ["Usage"], d⟩ := by
      unfold convMain
      rw [e, this]
    rw [hm]
    exact ⟨fun h => by simp at h, fun _ _ => rfl⟩
  have e1 := file_for (formatsIn opts) (inName args) hfi hni
  have e2 := file_for (formatsOut opts) (outName args) hfo hno
  rw [hti] at e1
  rw [hto] at e2
  have hmain : convMain T opts args d = convRun T ⟨ti, ei, if IsStd (inName args) then [] else inName args⟩
      ⟨tu, eo, if IsStd (outName args) then [] else outName args⟩ d := by
    unfold convMain
    rw [e, convNames_eq args ha]
    simp only
    rw [e1, e2]
  rw [hmain]
  unfold convRun
  cases hop : openOutput T d ⟨tu, eo, if IsStd (outName args) then [] else outName args⟩ with
  | none => exact ⟨fun h => by simp at h, fun _ _ => rfl⟩
  | some d1 =>
    have hw : ¬ IsStd (outName args) → d.writable (outName args) = true := by
      intro so
      unfold openOutput at hop
      simp only [so, if_false] at hop
      rw [if_neg (fun h => so (.inl h.1))] at hop
      split at hop
      · rename_i h; exact h.2
      · cases hop
    refine ⟨?_, fun so hf => by rw [hw so] at hf; cases hf⟩
    simp only
    cases openInput T d1 ⟨ti, ei, if IsStd (inName args) then [] else inName args⟩ with
    | none => intro h; simp at h
    | some x =>
      simp only
      intro h
      rcases hr : T.parse ti (ei = .pbf) x with ⟨cs, r⟩
      rw [hr] at h
      rcases hs : T.store tu (eo = .pbf) cs with ⟨y, w⟩
      simp only at h
      rw [hs] at h
      cases w with
      | error f => simp at h
      | ok u =>
        cases r with
        | threw f => simp at h
        | returned => exact ⟨ha, hw, x, cs, y, hr, hs⟩

/-- The hypotheses are met by an input that cannot be parsed and by an output that cannot be written. -/
example : let T : ConvTools Nat := ⟨0, fun _ x => x.getD 0, fun _ x => x,
      fun _ _ n => if n = 3 then ([], .returned) else ([], .threw .ub), fun _ _ _ => (1, .ok ())⟩
    let d : Disk Nat := ⟨fun n => if n = "x.osm".toList then some 4 else none, 0, none, fun _ => 0, fun n => n = "y.pbf".toList⟩
    formatFor [] "x.osm".toList = (.osm, .xml) ∧ PlainName "x.osm".toList ∧ PlainName "y.pbf".toList ∧
    (convMain T [] ["x.osm".toList, "y.pbf".toList] d).ended = .aborted ∧
    (convMain T [] ["x.osm".toList, "z.pbf".toList] d).ended = .aborted := by
  refine ⟨by decide, by decide, by decide, by decide, by decide⟩

/-- From a compressed history file whose name says something else, given with `-f`, to standard output as XML. -/
example : let T : ConvTools Nat := ⟨0, fun _ x => x.getD 0 - 1000, fun _ x => x + 1000,
      fun _ b n => if b = false ∧ n = 3 then ([], .returned) else ([], .threw .ub), fun _ b _ => (if b then 1 else 5, .ok ())⟩
    let d : Disk Nat := ⟨fun n => if n = "x/planet.osm".toList then some 1003 else none, 0, none, fun _ => 0, fun _ => false⟩
    WrittenTo T d (convMain T [.fromFormat "osm".toList, .debug, .fromFormat "osh.gz".toList, .toFormat "osm".toList]
      ["x/planet.osm".toList, "-".toList] d).disk "-".toList .xml 5 := by
  intro T d
  exact (convert_program_partial T _ _ d (by decide) (by decide) (by decide) (by decide) (by decide) (by decide) .history
    .osm .xmlgz .xml (by decide) (by decide) (by decide) (by decide) (by decide) (fun h => absurd (.inr rfl) h) 3 5 []
    (by decide) rfl rfl).2.2

/-- **C98**: Whatever the arguments, the files and the data: no file but the one named as output is changed. -/
theorem convert_others {α : Type} (T : ConvTools α) (opts : List ConvOpt) (args : List (List Char)) (d : Disk α)
    (n : List Char) (hne : n ≠ []) (h : args.length = 2 → n ≠ outName args) :
    (convMain T opts args d).disk.files n = d.files n := by
  unfold convMain
  split
  · rfl
  · rename_i v _
    split
    · rfl
    · rename_i i o hio
      have ho : n ≠ o := by
        match args, hio with
        | [], hio => cases hio; exact hne
        | [_], hio => cases hio; exact hne
        | [_, _], hio => cases hio; exact h rfl
      have hfn : ∀ f : List Char, n ≠ (if f = [] then FileInfo.ofName o
          else (FileInfo.ofName o).setTypeAndEncoding f).filename := by
        intro f
        have : n ≠ (FileInfo.ofName o).filename := by
          unfold FileInfo.ofName
          split
          · exact hne
          · split <;> exact ho
        split
        · exact this
        · exact this
      have hfn := hfn v.outputFormat
      simp only
      generalize (if v.outputFormat = [] then FileInfo.ofName o
          else (FileInfo.ofName o).setTypeAndEncoding v.outputFormat) = g at hfn
      generalize (if v.inputFormat = [] then FileInfo.ofName i
          else (FileInfo.ofName i).setTypeAndEncoding v.inputFormat) = f
      unfold convRun
      have hop : ∀ d1, openOutput T d g = some d1 → d1.files n = d.files n := by
        intro d1 hd
        unfold openOutput at hd
        split at hd
        · cases hd; rfl
        · split at hd
          · cases hd
            exact Function.update_of_ne hfn ..
          · cases hd
      cases hd : openOutput T d g with
      | none => rfl
      | some d1 =>
        simp only
        cases openInput T d1 f with
        | none => exact hop d1 hd
        | some x =>
          simp only [written]
          split
          · simp only; rw [Function.update_of_ne hfn]; exact hop d1 hd
          · split
            · exact hop d1 hd
            · simp only; rw [Function.update_of_ne hfn]; exact hop d1 hd

/-- **C98**: with a bad option or too many names the program ends with an error, with `-h` without, in each case before
it has touched any file. -/
theorem convert_usage {α : Type} (T : ConvTools α) (opts : List ConvOpt) (args : List (List Char)) (d : Disk α) :
    (∀ pre post, opts = pre ++ .help :: post → (∀ o ∈ pre, o ≠ .help ∧ o ≠ .bad) →
      (convMain T opts args d).ended = .exit 0 ∧ (convMain T opts args d).disk = d) ∧
    (∀ pre post, opts = pre ++ .bad :: post → (∀ o ∈ pre, o ≠ .help ∧ o ≠ .bad) →
      (convMain T opts args d).ended = .exit 1 ∧ (convMain T opts args d).disk = d) ∧
    ((∀ o ∈ opts, o ≠ .help ∧ o ≠ .bad) → 2 < args.length →
      (convMain T opts args d).ended = .exit 1 ∧ (convMain T opts args d).disk = d) := by
  have key : ∀ (pre post : List ConvOpt) (v : ConvVars), (∀ o ∈ pre, o ≠ .help ∧ o ≠ .bad) →
      convOptions v (pre ++ .help :: post) = .error 0 ∧ convOptions v (pre ++ .bad :: post) = .error 1 := by
    intro pre post
    induction pre with
    | nil => exact fun v _ => ⟨rfl, rfl⟩
    | cons o os ih =>
      intro v h
      have hos := fun o ho => h o (List.mem_cons_of_mem _ ho)
      have h0 := h o (List.mem_cons_self ..)
      cases o with
      | debug => exact ih _ hos
      | fromFormat f => exact ih _ hos
      | toFormat f => exact ih _ hos
      | help => exact absurd rfl h0.1
      | bad => exact absurd rfl h0.2
  refine ⟨?_, ?_, ?_⟩
  · rintro pre post rfl h
    unfold convMain
    rw [(key pre post _ h).1]
    exact ⟨rfl, rfl⟩
  · rintro pre post rfl h
    unfold convMain
    rw [(key pre post _ h).2]
    exact ⟨rfl, rfl⟩
  · intro h hl
    obtain ⟨b, e⟩ := convOptions_good opts h ⟨false, [], []⟩
    have : convNames args = none := by
      match args, hl with
      | _ :: _ :: _ :: _, _ => rfl
    unfold convMain
    rw [e, this]
    exact ⟨rfl, rfl⟩

/-! ### With the readers and writers of this library -/

/-- The readers and writers for data that is not compressed; data in one format cannot be read as the other, `torn` is
what is in the file if the output handler throws. (osmium.hpp 54-77, output.hpp 105-113) -/
def convTools (lib : PbfLib) (c : PbfCodec) (chunks : Nat → Nat) (torn : FileData) : ConvTools FileData where
  empty := .pbf []
  unpack := fun _ x => x.getD (.pbf [])
  pack := fun _ x => x
  parse := fun ft pbf x =>
    match pbf, x with
    | true, .pbf _ => x.read c ft chunks
    | false, .xml _ => x.read c ft chunks
    | _, _ => ([], .threw (.exn "cannot parse"))
  store := fun ft pbf cs =>
    match writeAs lib c true ft "osmium_convert" (if pbf then .pbf else .xml) cs with
    | .ok g => (g, .ok ())
    | .error e => (torn, .error e)

namespace Spec
/-- The encoding of a file that is not compressed, and the file is in it. -/
def InFormat : FileEncoding → FileData → Prop
  | .pbf, .pbf _ => True
  | .xml, .xml _ => True
  | _, _ => False
/-- The format of an encoding. -/
def fmtOf : FileEncoding → Fmt
  | .pbf => .pbf
  | _ => .xml
end Spec

/-- **C98** with C68: `osmium_convert A B` for two names with the same type, neither of them compressed: if `A` has
objects that both formats can store, `B` has them afterwards, up to what its format keeps, and `A` is as before. -/
theorem convert_program_objects_partial (lib : PbfLib) (c : PbfCodec) (chunks : Nat → Nat) (torn : FileData)
    (a b : List Char) (d : Disk FileData) (f g : FileData) (ft : FileType) (ea eb : FileEncoding)
    (hna : PlainName a ∧ ¬ IsStd a ∧ ¬ IsUrl a) (hnb : PlainName b ∧ ¬ IsStd b) (hab : a ≠ b)
    (hfa : settingsOf a = (ft, ea)) (hfb : settingsOf b = (ft, eb)) (hcb : ¬ Compressed eb)
    (ha : d.files a = some f) (hf : InFormat ea f) (hw : d.writable b = true)
    (os : List OsmObj) (hos : Convertible ft os) (hobj : HasObjects c ft f os)
    (hg : convertFile lib c true ft "osmium_convert" chunks (fmtOf eb) f = .ok g)
    (hfit : fmtOf eb = .pbf → ∀ m bs, f.read c ft chunks = (protocol m os, .returned) →
      pbfBlocks lib (PbfCfg.default ft.multi) os = .ok bs →
      ∀ x ∈ fileBlobs c (PbfCfg.default ft.multi) ft "osmium_convert" m bs, BlobFits c.toBlobCodec true x.1 x.2) :
    let r := convMain (convTools lib c chunks torn) [] [a, b] d
    r.ended = .exit 0 ∧ r.warnings = [] ∧ r.disk.files a = some f ∧
    ∃ g, r.disk.files b = some g ∧ HasObjects c ft g (os.map (keptIn ft (fmtOf eb))) := by
  obtain ⟨m, hm, hr⟩ := hobj
  have hca : ¬ Compressed ea := by
    cases ea <;> cases f <;> simp_all [InFormat, Compressed]
  have hparse : (convTools lib c chunks torn).parse ft (ea = .pbf) f = (protocol m os, .returned) := by
    cases ea <;> cases f <;> simp_all [InFormat, convTools]
  have hwa : writeAs lib c true ft "osmium_convert" (fmtOf eb) (protocol m os) = .ok g := by
    unfold convertFile convert at hg
    rw [hr chunks] at hg
    obtain ⟨z, hz, hg⟩ := except_bind_ok hg
    simp only [pure, Except.pure, Except.ok.injEq] at hg
    subst hg
    exact hz
  have hstore : (convTools lib c chunks torn).store ft (eb = .pbf) (protocol m os) = (g, .ok ()) := by
    have hb : (if (decide (eb = FileEncoding.pbf)) = true then Fmt.pbf else Fmt.xml) = fmtOf eb := by
      cases eb <;> rfl
    simp only [convTools, hb, hwa]
  have hx : inputData (convTools lib c chunks torn) d a ea = some f := by
    simp only [inputData, hna.2.1, hna.2.2, hca, if_false, ha, Option.map_some]
  obtain ⟨h1, h2, h3⟩ := convert_program_partial (convTools lib c chunks torn) [] [a, b] d (by simp) (by simp [formatsIn])
    (by simp [formatsOut]) (by simp) hna.1 hnb.1 ft ft ea eb hfa hfb (fun h => absurd h hca) (fun h => absurd h hcb)
    (fun h => absurd h hab) (fun _ => hw) f g _ hx hparse hstore
  have hb := (h3.file hnb.2).1
  rw [if_neg hcb] at hb
  refine ⟨h1, h2.2 rfl, ?_, g, hb, ?_⟩
  · rw [h3.others a hab, ha]
  · refine convert_step lib c ft (fmtOf eb) f g os hos ⟨m, hm, hr⟩ ⟨⟨true, "osmium_convert", chunks, hg, ?_⟩⟩
    intro hpbf m' os' bs hr' hbs
    rw [hr chunks] at hr'
    obtain ⟨rfl, rfl⟩ := protocol_injective (congrArg Prod.fst hr')
    exact hfit hpbf m bs (hr chunks) hbs

/-- The demonstration file is converted from XML to PBF. -/
example : ∃ g, (convMain (convTools demoLib demoPbfCodec (fun _ => 7) (.pbf [])) [] ["a.osh".toList, "b.osh.pbf".toList]
      ⟨fun n => if n = "a.osh".toList then some (.xml cdemoXml) else none, .pbf [], none, fun _ => .pbf [],
        fun _ => true⟩).disk.files "b.osh.pbf".toList = some g ∧
    HasObjects demoPbfCodec .history g cdemoObjs := by
  have hk : cdemoObjs.map (keptIn .history .pbf) = cdemoObjs := by decide +kernel
  have hex : ∃ g, convertFile demoLib demoPbfCodec true .history "osmium_convert" (fun _ => 7) .pbf (.xml cdemoXml) =
      .ok g := by
    cases e : convertFile demoLib demoPbfCodec true .history "osmium_convert" (fun _ => 7) .pbf (.xml cdemoXml) with
    | ok g => exact ⟨g, rfl⟩
    | error f =>
      exfalso
      have : (convertFile demoLib demoPbfCodec true .history "osmium_convert" (fun _ => 7) .pbf
        (.xml cdemoXml)).toOption.isSome = true := by decide +kernel
      rw [e] at this
      cases this
  obtain ⟨g, hg⟩ := hex
  have hfits : blobsFit demoPbfCodec true (fileBlobs demoPbfCodec (PbfCfg.default true) .history "osmium_convert"
      ⟨demoMeta.bounds, "me", true⟩
      ((pbfBlocks demoLib (PbfCfg.default true) cdemoObjs).toOption.getD [])) = true := by decide +kernel
  have hread : (FileData.xml cdemoXml).read demoPbfCodec .history (fun _ => 7) =
      (protocol ⟨demoMeta.bounds, "me", true⟩ cdemoObjs, .returned) := by
    show xmlParse .history (fun _ => false) ⟨cdemoXml, none⟩ = _
    decide +kernel
  have := (convert_program_objects_partial demoLib demoPbfCodec (fun _ => 7) (.pbf []) "a.osh".toList "b.osh.pbf".toList
    ⟨fun n => if n = "a.osh".toList then some (.xml cdemoXml) else none, .pbf [], none, fun _ => .pbf [], fun _ => true⟩
    (.xml cdemoXml) g .history .xml .pbf (by decide) (by decide) (by decide) (by decide) (by decide) (by decide) rfl trivial
    rfl cdemoObjs cdemo_convertible.1 cdemo_chain.1 hg (by
      intro _ m bs hr hb
      rw [hread] at hr
      obtain ⟨rfl, -⟩ := protocol_injective (congrArg Prod.fst hr)
      have := blobsFit_spec hfits
      have e : (pbfBlocks demoLib (PbfCfg.default true) cdemoObjs) = .ok bs := hb
      rw [e] at this
      exact this)).2.2.2
  rw [show fmtOf .pbf = .pbf from rfl, hk] at this
  exact this

/-! ### What is missing -/

/-- An unknown format is not refused: the data is read or written as PBF. -/
theorem convert_unknown_format {α : Type} (T : ConvTools α) (d : Disk α) (f g : List Char)
    (hf : f ∉ knownSuffixes.map Prod.fst) (hf0 : f ≠ []) (hg : g ∉ knownSuffixes.map Prod.fst) (hg0 : g ≠ [])
    (args : List (List Char)) :
    convMain T [.fromFormat f, .toFormat g] args d = convMain T [.fromFormat "pbf".toList, .toFormat "pbf".toList] args d := by
  have key : ∀ f : List Char, f ∉ knownSuffixes.map Prod.fst → typeAndEncoding f = typeAndEncoding "pbf".toList := by
    intro f hf
    rw [typeAndEncoding_eq, typeAndEncoding_eq]
    have : knownSuffixes.lookup f = none := by
      rw [List.lookup_eq_none_iff]
      intro p hp
      simp only [beq_eq_false_iff_ne, ne_eq, bne_iff_ne]
      intro e
      exact hf (List.mem_map.2 ⟨p, hp, e.symm⟩)
    rw [this]
    rfl
  have e : ∀ (i : FileInfo) (f : List Char), f ∉ knownSuffixes.map Prod.fst →
      i.setTypeAndEncoding f = i.setTypeAndEncoding "pbf".toList := by
    intro i f hf
    unfold FileInfo.setTypeAndEncoding
    rw [key f hf]
  unfold convMain
  simp only [convOptions]
  cases convNames args with
  | none => rfl
  | some p =>
    simp only [if_neg hf0, if_neg hg0, e _ f hf, e _ g hg]
    rfl

/-- If there is no input file, what was in the output file is lost: the output is opened first. -/
theorem convert_destroys_output {α : Type} (T : ConvTools α) (d : Disk α) (a b : List Char)
    (ha : ¬ IsStd a ∧ fileProtocol a ≠ "http".toList ∧ fileProtocol a ≠ "https".toList)
    (hna : d.files a = none) (hca : ¬ Compressed (FileInfo.ofName a).encoding)
    (hab : a ≠ b) (hb : ¬ IsStd b) (hw : d.writable b = true) :
    (convMain T [] [a, b] d).ended = .aborted ∧ (convMain T [] [a, b] d).disk.files b = some T.empty := by
  have hfn : ∀ n : List Char, ¬ IsStd n → (FileInfo.ofName n).filename = n := by
    intro n hn
    unfold FileInfo.ofName
    rw [if_neg (show ¬ (n = [] ∨ n = "-".toList) from hn)]
    split <;> rfl
  have hbne : b ≠ [] := fun h => hb (.inl h)
  have hane : a ≠ [] := fun h => ha.1 (.inl h)
  have hop : openOutput T d (FileInfo.ofName b) =
      some { d with files := Function.update d.files b (some T.empty) } := by
    unfold openOutput
    rw [hfn b hb, if_neg (fun h => hbne h.1), if_pos ⟨hbne, hw⟩]
  have hin : openInput T { d with files := Function.update d.files b (some T.empty) } (FileInfo.ofName a) = none := by
    unfold openInput
    rw [if_neg (show ¬ ((FileInfo.ofName a).encoding = .xmlgz ∨ (FileInfo.ofName a).encoding = .xmlbz2) from hca),
      hfn a ha.1, if_neg (by rintro (h | h); exacts [ha.2.1 h, ha.2.2 h]), if_neg hane]
    simp only
    rw [Function.update_of_ne hab, hna]
  have hm : convMain T [] [a, b] d = convRun T (FileInfo.ofName a) (FileInfo.ofName b) d := rfl
  rw [hm]
  unfold convRun
  rw [hop]
  simp only
  rw [hin]
  simp

/-- If input and output are the same file, its data is lost: what happens does not depend on it. -/
theorem convert_same_file {α : Type} (T : ConvTools α) (d : Disk α) (a : List Char) (ha : ¬ IsStd a)
    (hw : d.writable a = true) (x y : α) :
    convMain T [] [a, a] { d with files := Function.update d.files a (some x) } =
      convMain T [] [a, a] { d with files := Function.update d.files a (some y) } := by
  have hfn : (FileInfo.ofName a).filename = a := by
    unfold FileInfo.ofName
    rw [if_neg (show ¬ (a = [] ∨ a = "-".toList) from ha)]
    split <;> rfl
  have hne : a ≠ [] := fun h => ha (.inl h)
  have hop : ∀ z, openOutput T { d with files := Function.update d.files a (some z) } (FileInfo.ofName a) =
      some { d with files := Function.update d.files a (some T.empty) } := by
    intro z
    unfold openOutput
    rw [hfn, if_neg (fun h => hne h.1), if_pos ⟨hne, hw⟩]
    simp
  have hm : ∀ d, convMain T [] [a, a] d = convRun T (FileInfo.ofName a) (FileInfo.ofName a) d := fun _ => rfl
  rw [hm, hm]
  unfold convRun
  rw [hop, hop]

/-- Compressed data cannot be written to standard output: the program fails with `-t osm.gz` and no name for the output.
Nor can it be read from standard input: with `-f osm.gz` and no name the program does not look at it. -/
theorem convert_compressed_std {α : Type} (T : ConvTools α) (d : Disk α) (a : List Char) (x : α) :
    (convMain T [.toFormat "osm.gz".toList] [a] d).ended = .aborted ∧
    (convMain T [.fromFormat "osm.gz".toList] [] d).disk.stdout =
      (convMain T [.fromFormat "osm.gz".toList] [] { d with stdin := x }).disk.stdout := by
  constructor
  · rfl
  · rfl

end Osmium

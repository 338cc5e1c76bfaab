import Verif.Examples.ConvertMainProps
import Verif.Examples.VersionsProps

/-
C132: the program osmium_range_from_history: its arguments, the files it opens and what is in them when it ends
(examples/osmium_range_from_history.cpp).
-/
namespace Osmium
open Spec

/-- examples/osmium_range_from_history.cpp 21-36 `main`.  The output is opened by the constructor of
`Osmium::Output::Handler` (line 30, output.hpp 48-55 and osmfile.hpp 665-667), the input by `Osmium::Input::read` (line
33, osmium.hpp 54-77).  `lo` and `hi` are what the two calls of `time(0)` return.  What the reader finds goes through the
handlers EndTime and RangeFromHistory to the output (lines 31-32). -/
def rangeProgram {α : Type} (T : ConvTools α) (lo hi : Int) (args : List (List Char)) (d : Disk α) : ConvResult α :=
  match args with
  | [i, o] =>
    let infile := FileInfo.ofName i
    let outfile := FileInfo.ofName o
    match openOutput T d outfile with
    | none => ⟨.aborted, [], d⟩
    | some d1 =>
      match openInput T d1 infile with
      | none => ⟨.aborted, [], d1⟩
      | some x =>
        let r := T.parse infile.type (infile.encoding = .pbf) x
        let w := T.store outfile.type (outfile.encoding = .pbf) (rangeRun lo hi (endTimeRun EndTimeState.new r.1))
        let e : ConvEnd := match w.2, r.2 with
          | .ok _, .returned => .exit 0
          | _, _ => .aborted
        ⟨e, [], written T d1 outfile w.1⟩
  | _ => ⟨.exit 1, ["Usage"], d⟩

/-- (helper) The tools with the two handlers in front of the output. -/
def ConvTools.inRange {α : Type} (T : ConvTools α) (lo hi : Int) : ConvTools α :=
  { T with store := fun ft b cs => T.store ft b (rangeRun lo hi (endTimeRun EndTimeState.new cs)) }

/-- (helper) The program is like osmium_convert with these tools and without its warnings. -/
theorem rangeProgram_convert {α : Type} (T : ConvTools α) (lo hi : Int) (a b : List Char) (d : Disk α) :
    (rangeProgram T lo hi [a, b] d).ended = (convMain (T.inRange lo hi) [] [a, b] d).ended ∧
    (rangeProgram T lo hi [a, b] d).disk = (convMain (T.inRange lo hi) [] [a, b] d).disk ∧
    (rangeProgram T lo hi [a, b] d).warnings = [] := by
  have hm : convMain (T.inRange lo hi) [] [a, b] d = convRun (T.inRange lo hi) (FileInfo.ofName a) (FileInfo.ofName b) d :=
    rfl
  have ho : openOutput (T.inRange lo hi) d (FileInfo.ofName b) = openOutput T d (FileInfo.ofName b) := rfl
  rw [hm]
  unfold rangeProgram convRun
  simp only [ho]
  cases openOutput T d (FileInfo.ofName b) with
  | none => exact ⟨rfl, rfl, rfl⟩
  | some d1 =>
    have hi' : openInput (T.inRange lo hi) d1 (FileInfo.ofName a) = openInput T d1 (FileInfo.ofName a) := rfl
    simp only [hi']
    cases openInput T d1 (FileInfo.ofName a) with
    | none => exact ⟨rfl, rfl, rfl⟩
    | some x => exact ⟨rfl, rfl, rfl⟩

/-- **C132**: with any other number of arguments than two the program ends with an error before it has touched any
file. -/
theorem range_program_usage {α : Type} (T : ConvTools α) (lo hi : Int) (args : List (List Char)) (d : Disk α)
    (h : args.length ≠ 2) : rangeProgram T lo hi args d = ⟨.exit 1, ["Usage"], d⟩ := by
  match args, h with
  | [], _ => rfl
  | [_], _ => rfl
  | _ :: _ :: _ :: _, _ => rfl

/-- **C132**: whatever the arguments, the files and the data: no file but the one named as output is changed. -/
theorem range_program_others {α : Type} (T : ConvTools α) (lo hi : Int) (args : List (List Char)) (d : Disk α)
    (n : List Char) (hne : n ≠ []) (h : ∀ i o, args = [i, o] → n ≠ o) :
    (rangeProgram T lo hi args d).disk.files n = d.files n := by
  by_cases hl : args.length = 2
  · match args, hl with
    | [i, o], _ =>
      rw [(rangeProgram_convert T lo hi i o d).2.1]
      exact convert_others _ [] [i, o] d n hne fun _ => h i o rfl
  · rw [range_program_usage T lo hi args d hl]

/-- **C132**: if the program ends without error it could write to the output, the history was read to its end, and what
the handlers let through was stored.  If the output cannot be written, nothing is changed. -/
theorem range_program_reports_errors {α : Type} (T : ConvTools α) (lo hi : Int) (a b : List Char) (d : Disk α)
    (hna : PlainName a) (hnb : PlainName b) (ti tu : FileType) (ei eo : FileEncoding)
    (hti : settingsOf a = (ti, ei)) (hto : settingsOf b = (tu, eo)) :
    ((rangeProgram T lo hi [a, b] d).ended = .exit 0 →
      (¬ IsStd b → d.writable b = true) ∧
      ∃ x cs y, T.parse ti (ei = .pbf) x = (cs, .returned) ∧
        T.store tu (eo = .pbf) (rangeRun lo hi (endTimeRun EndTimeState.new cs)) = (y, .ok ())) ∧
    (¬ IsStd b → d.writable b = false → (rangeProgram T lo hi [a, b] d).disk = d) := by
  have h := convert_reports_errors (T.inRange lo hi) [] [a, b] d (by simp) (by simp [formatsIn]) (by simp [formatsOut])
    hna hnb ti tu ei eo hti hto
  obtain ⟨h1, h2, -⟩ := rangeProgram_convert T lo hi a b d
  rw [h1, h2]
  exact ⟨fun e => (h.1 e).2, h.2⟩

/-- **C132**: with an input that exists and can be read, another file than the output, and an output that can be written:
what the output handler makes of the versions the handlers let through is in the output file, nothing else is changed, and
the program ends without error.  Either may be standard input or output, the input an address, and files with names
may be compressed.  (Partial: otherwise see `range_program_destroys_output` and `range_program_same_file`.) -/
theorem range_program_partial {α : Type} (T : ConvTools α) (lo hi : Int) (a b : List Char) (d : Disk α)
    (hna : PlainName a) (hnb : PlainName b) (ti tu : FileType) (ei eo : FileEncoding)
    (hti : settingsOf a = (ti, ei)) (hto : settingsOf b = (tu, eo))
    (hci : Compressed ei → ¬ IsStd a ∧ ¬ IsUrl a) (hco : Compressed eo → ¬ IsStd b)
    (hdiff : a = b → IsStd a) (hwr : ¬ IsStd b → d.writable b = true)
    (x y : α) (cs : List Cb) (hx : inputData T d a ei = some x) (hp : T.parse ti (ei = .pbf) x = (cs, .returned))
    (hs : T.store tu (eo = .pbf) (rangeRun lo hi (endTimeRun EndTimeState.new cs)) = (y, .ok ())) :
    (rangeProgram T lo hi [a, b] d).ended = .exit 0 ∧ (rangeProgram T lo hi [a, b] d).warnings = [] ∧
    WrittenTo T d (rangeProgram T lo hi [a, b] d).disk b eo y := by
  obtain ⟨h1, h2, h3⟩ := rangeProgram_convert T lo hi a b d
  obtain ⟨g1, -, g3⟩ := convert_program_partial (T.inRange lo hi) [] [a, b] d (by simp) (by simp [formatsIn])
    (by simp [formatsOut]) (by simp) hna hnb ti tu ei eo hti hto hci hco hdiff hwr x y cs hx hp hs
  refine ⟨h1.trans g1, h3, ?_⟩
  rw [h2]
  exact ⟨g3.file, g3.std, g3.others⟩

/-- The code does not do this: if there is no input file, what was in the output file is lost, because the output is
opened first. -/
theorem range_program_destroys_output {α : Type} (T : ConvTools α) (lo hi : Int) (d : Disk α) (a b : List Char)
    (ha : ¬ IsStd a ∧ fileProtocol a ≠ "http".toList ∧ fileProtocol a ≠ "https".toList)
    (hna : d.files a = none) (hca : ¬ Compressed (FileInfo.ofName a).encoding)
    (hab : a ≠ b) (hb : ¬ IsStd b) (hw : d.writable b = true) :
    (rangeProgram T lo hi [a, b] d).ended = .aborted ∧ (rangeProgram T lo hi [a, b] d).disk.files b = some T.empty := by
  obtain ⟨h1, h2, -⟩ := rangeProgram_convert T lo hi a b d
  rw [h1, h2]
  exact convert_destroys_output (T.inRange lo hi) d a b ha hna hca hab hb hw

/-- The code does not do this: if input and output are the same file, the history is lost: what happens does not depend
on it. -/
theorem range_program_same_file {α : Type} (T : ConvTools α) (lo hi : Int) (d : Disk α) (a : List Char) (ha : ¬ IsStd a)
    (hw : d.writable a = true) (x y : α) :
    rangeProgram T lo hi [a, a] { d with files := Function.update d.files a (some x) } =
      rangeProgram T lo hi [a, a] { d with files := Function.update d.files a (some y) } := by
  have hfn : (FileInfo.ofName a).filename = a := by
    unfold FileInfo.ofName
    rw [if_neg (show ¬ (a = [] ∨ a = "-".toList) from ha)]
    split <;> rfl
  have hne : a ≠ [] := fun h => ha (.inl h)
  have hop : ∀ z, openOutput T { d with files := Function.update d.files a (some z) } (FileInfo.ofName a) =
      some { d with files := Function.update d.files a (some T.empty) } := by
    intro z
    unfold openOutput
    rw [hfn, if_neg (fun h => hne h.1), if_pos ⟨hne, hw⟩]
    simp
  unfold rangeProgram
  simp only [hop]

/-! ### With the readers and writers of this library -/

/-- The generator an output handler has if nobody sets it. (include/osmium/output.hpp 53) -/
def defaultGenerator : String := "Osmium (http://wiki.openstreetmap.org/wiki/Osmium)"

/-- The readers and writers of this library, for files that are not compressed; `torn` is what is written before the
writer throws. (used by examples/osmium_range_from_history.cpp 27-33) -/
def rangeTools (lib : PbfLib) (c : PbfCodec) (chunks : Nat → Nat) (torn : FileData) : ConvTools FileData where
  empty := .pbf []
  unpack := fun _ x => x.getD (.pbf [])
  pack := fun _ x => x
  parse := fun ft pbf x =>
    match pbf, x with
    | true, .pbf _ => x.read c ft chunks
    | false, .xml _ => x.read c ft chunks
    | _, _ => ([], .threw (.exn "cannot parse"))
  store := fun ft pbf cs =>
    match writeAs lib c true ft defaultGenerator (if pbf then .pbf else .xml) cs with
    | .ok g => (g, .ok ())
    | .error e => (torn, .error e)

/-- **C132** with C94: `osmium_range_from_history A B` for two names that are not compressed: if `A` is a history with
versions from before the program was started, `B` has afterwards exactly the last version of every object in the same
order, up to what its format keeps, and `A` is as before. -/
theorem range_program_objects_partial (lib : PbfLib) (c : PbfCodec) (chunks : Nat → Nat) (torn : FileData) (lo hi : Int)
    (a b : List Char) (d : Disk FileData) (f g : FileData) (ft ft' : FileType) (ea eb : FileEncoding)
    (hna : PlainName a ∧ ¬ IsStd a ∧ ¬ IsUrl a) (hnb : PlainName b ∧ ¬ IsStd b) (hab : a ≠ b)
    (hfa : settingsOf a = (ft, ea)) (hfb : settingsOf b = (ft', eb)) (hcb : ¬ Compressed eb)
    (ha : d.files a = some f) (hf : InFormat ea f) (hw : d.writable b = true)
    (os : List OsmObj) (hobj : HasObjects c ft f os) (hh : History os)
    (hlo : ∀ o ∈ os, o.obj.timestamp < lo) (hhi : ∀ o ∈ os, o.obj.timestamp < hi)
    (hos : Convertible ft' (lastVersions os))
    (hg : rangeMain lib c true ft ft' defaultGenerator chunks lo hi (fmtOf eb) f = .ok g)
    (hfit : fmtOf eb = .pbf → ∀ m bs, pbfBlocks lib (PbfCfg.default ft'.multi) (lastVersions os) = .ok bs →
      ∀ x ∈ fileBlobs c (PbfCfg.default ft'.multi) ft' defaultGenerator m bs, BlobFits c.toBlobCodec true x.1 x.2) :
    let r := rangeProgram (rangeTools lib c chunks torn) lo hi [a, b] d
    r.ended = .exit 0 ∧ r.warnings = [] ∧ r.disk.files a = some f ∧
    ∃ g, r.disk.files b = some g ∧ HasObjects c ft' g ((lastVersions os).map (keptIn ft' (fmtOf eb))) := by
  have hobj' := hobj
  obtain ⟨m, hm, hr⟩ := hobj
  have hca : ¬ Compressed ea := by
    cases ea <;> cases f <;> simp_all [InFormat, Compressed]
  have hparse : (rangeTools lib c chunks torn).parse ft (ea = .pbf) f = (protocol m os, .returned) := by
    cases ea <;> cases f <;> simp_all [InFormat, rangeTools]
  have hwa : writeAs lib c true ft' defaultGenerator (fmtOf eb)
      (rangeRun lo hi (endTimeRun EndTimeState.new (protocol m os))) = .ok g := by
    have hg' := hg
    unfold rangeMain convert at hg'
    rw [hr chunks] at hg'
    obtain ⟨z, hz, hg'⟩ := except_bind_ok hg'
    simp only [pure, Except.pure, Except.ok.injEq] at hg'
    subst hg'
    exact hz
  have hstore : (rangeTools lib c chunks torn).store ft' (eb = .pbf)
      (rangeRun lo hi (endTimeRun EndTimeState.new (protocol m os))) = (g, .ok ()) := by
    have hb : (if (decide (eb = FileEncoding.pbf)) = true then Fmt.pbf else Fmt.xml) = fmtOf eb := by
      cases eb <;> rfl
    simp only [rangeTools, hb, hwa]
  have hx : inputData (rangeTools lib c chunks torn) d a ea = some f := by
    simp only [inputData, hna.2.1, hna.2.2, hca, if_false, ha, Option.map_some]
  obtain ⟨h1, h2, h3⟩ := range_program_partial (rangeTools lib c chunks torn) lo hi a b d hna.1 hnb.1 ft ft' ea eb hfa hfb
    (fun h => absurd h hca) (fun h => absurd h hcb) (fun h => absurd h hab) (fun _ => hw) f g _ hx hparse hstore
  have hb := (h3.file hnb.2).1
  rw [if_neg hcb] at hb
  refine ⟨h1, h2, ?_, g, hb, ?_⟩
  · rw [h3.others a hab, ha]
  · exact range_from_history_partial lib c true ft ft' defaultGenerator chunks lo hi (fmtOf eb) f g os hobj' hh hlo hhi hos
      hg hfit

/-- A disk with the history file of C94. (data for the examples, no counterpart in /repo) -/
def rangeDisk : Disk FileData :=
  ⟨fun n => if n = "h.osh".toList then some (.xml rdemoXml) else if n = "old.osm".toList then some (.xml []) else none,
    .pbf [], none, fun _ => .pbf [], fun _ => true⟩

/-- The demonstration history has four versions of three objects; the extract has the three last ones. -/
example : ∃ g, (rangeProgram (rangeTools demoLib demoPbfCodec (fun _ => 7) (.pbf [])) 1700000000 1700000000
      ["h.osh".toList, "x.osh".toList] rangeDisk).disk.files "x.osh".toList = some g ∧
    HasObjects demoPbfCodec .history g (cdemoObjs.map (xmlKept .history)) := by
  have e : lastVersions (rdemoOld :: cdemoObjs) = cdemoObjs := by decide +kernel
  have hex : ∃ g, rangeMain demoLib demoPbfCodec true .history .history defaultGenerator (fun _ => 7) 1700000000 1700000000
      .xml (.xml rdemoXml) = .ok g := by
    cases h : rangeMain demoLib demoPbfCodec true .history .history defaultGenerator (fun _ => 7) 1700000000 1700000000
      .xml (.xml rdemoXml) with
    | ok g => exact ⟨g, rfl⟩
    | error f =>
      exfalso
      have : (rangeMain demoLib demoPbfCodec true .history .history defaultGenerator (fun _ => 7) 1700000000 1700000000
        .xml (.xml rdemoXml)).toOption.isSome = true := by decide +kernel
      rw [h] at this
      cases this
  obtain ⟨g, hg⟩ := hex
  have := (range_program_objects_partial demoLib demoPbfCodec (fun _ => 7) (.pbf []) 1700000000 1700000000 "h.osh".toList
    "x.osh".toList rangeDisk (.xml rdemoXml) g .history .history .xml .xml (by decide) (by decide) (by decide) (by decide)
    (by decide) (by decide) rfl trivial rfl (rdemoOld :: cdemoObjs) rdemo_has rdemo_history (by decide +kernel)
    (by decide +kernel) (by rw [e]; exact cdemo_convertible.1) hg (by intro h; cases h)).2.2.2
  rw [e] at this
  exact this

/-- A name that does not exist: the old output is lost. -/
example : (rangeProgram (rangeTools demoLib demoPbfCodec (fun _ => 7) (.pbf [])) 1700000000 1700000000
      ["hh.osh".toList, "old.osm".toList] rangeDisk).ended = .aborted ∧
    (rangeProgram (rangeTools demoLib demoPbfCodec (fun _ => 7) (.pbf [])) 1700000000 1700000000
      ["hh.osh".toList, "old.osm".toList] rangeDisk).disk.files "old.osm".toList = some (.pbf []) :=
  range_program_destroys_output _ _ _ _ _ _ (by decide) rfl (by decide) (by decide) (by decide) rfl

/-- The hypotheses of `range_program_same_file` and `range_program_usage` are met. -/
example : ¬ IsStd "h.osh".toList ∧ rangeDisk.writable "h.osh".toList = true ∧
    (["h.osh".toList] : List (List Char)).length ≠ 2 := by decide

end Osmium

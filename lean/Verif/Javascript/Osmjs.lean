import Verif.Common.Res
import Mathlib.Tactic.ByContra

/-
C82: what the program osmjs does for its command line, osmjs/osmjs.cpp.  `getopt_long` is taken as its
documentation describes it: it gives the options in the order of the command line, and leaves the other
arguments.
-/
namespace Osmium

/-- osmjs/osmjs.cpp 107-113: the location stores. -/
inductive LocationStore
  | none
  | array
  | disk
  | sparsetable
  | vector
deriving DecidableEq, Repr

/-- osmjs/osmjs.cpp 115-125, 131: an option as `getopt_long` gives it; `other` is an option that is not known
or lacks its argument. -/
inductive OjOption
  | debug
  | incl (file : String)
  | javascript (file : String)
  | help
  | locationStore (name : String)
  | noRepair
  | twoPass
  | multipolygon
  | other
deriving DecidableEq, Repr

/-- The file system and the environment of the process: which files can be read (`access`), and
`HOME`. (osmjs/osmjs.cpp 67-95: `getenv`, `access`) -/
structure OjEnv where
  readable : String → Bool
  home : Option String

/-- osmjs/osmjs.cpp 67-75: the search path.  A `std::string` made from a null pointer is undefined. -/
def includeDirs (env : OjEnv) : Res (List String) :=
  match env.home with
  | none => .error .ub
  | some h => .ok ["/", ".", "js", h ++ "/.osmjs", "/usr/local/share/osmjs", "/usr/share/osmjs"]

/-- osmjs/osmjs.cpp 77-80: a suffix is added if there is no dot at all in the name. -/
def withSuffix (file : String) : String := if file.toList.contains '.' then file else file ++ ".js"

/-- osmjs/osmjs.cpp 67-96 `find_include_file`; `none` when the program exits with code 1. -/
def findInclude (env : OjEnv) (file : String) : Res (Option String) :=
  match includeDirs env with
  | .error e => .error e
  | .ok dirs => .ok ((dirs.map fun d => d ++ "/" ++ withSuffix file).find? env.readable)

/-- osmjs/osmjs.cpp 148-163: the argument of `-l`; `none` when it is not known. -/
def storeOfName (name : String) : Option LocationStore :=
  if name = "none" then some .none
  else if name = "array" then some .array
  else if name = "disk" then some .disk
  else if name = "vector" then some .vector
  else if name = "sparsetable" then some .sparsetable
  else none

/-- osmjs/osmjs.cpp 101-113, 127-128: the variables. -/
structure OjVars where
  twoPasses : Bool := false
  repair : Bool := true
  javascript : String := ""
  includes : List String := []
  store : LocationStore := .none
  debug : Bool := false
  multipolygon : Bool := false
deriving DecidableEq, Repr

/-- The end of the option loop: the values of the variables, or the program exits with a code.
(osmjs/osmjs.cpp 129-178) -/
inductive OjLoop
  | vars (v : OjVars)
  | exit (code : Nat)
deriving DecidableEq, Repr

/-- osmjs/osmjs.cpp 130-178: the option loop. -/
def optionLoop (env : OjEnv) : OjVars → List OjOption → Res OjLoop
  | v, [] => .ok (.vars v)
  | v, .debug :: os => optionLoop env { v with debug := true } os
  | v, .incl f :: os =>
    match findInclude env f with
    | .error e => .error e
    | .ok none => .ok (.exit 1)
    | .ok (some p) => optionLoop env { v with includes := v.includes ++ [p] } os
  | v, .javascript f :: os => optionLoop env { v with javascript := f } os
  | _, .help :: _ => .ok (.exit 0)
  | v, .locationStore n :: os =>
    match storeOfName n with
    | none => .ok (.exit 1)
    | some s => optionLoop env { v with store := s } os
  | v, .noRepair :: os => optionLoop env { v with repair := false } os
  | v, .twoPass :: os => optionLoop env { v with twoPasses := true } os
  | v, .multipolygon :: os => optionLoop env { v with multipolygon := true, twoPasses := true } os
  | _, .other :: _ => .ok (.exit 1)

/-- osmjs/osmjs.cpp 243-266: how the file is read. -/
inductive OjPlan
  /-- 243-255: two passes; in the second the locations are added, multipolygons are assembled and the script gets
  the results -/
  | assemble (store : LocationStore) (repair : Bool)
  /-- 256-263: one pass with locations -/
  | located (store : LocationStore)
  /-- 264-266 -/
  | plain
deriving DecidableEq, Repr

/-- What the program does: it exits, or runs the script. (osmjs/osmjs.cpp 98-273) -/
inductive OjOutcome
  | exit (code : Nat)
  | run (file : String) (scriptArgs : List String) (includes : List String) (javascript : String) (plan : OjPlan)
      (warning : Bool)
deriving DecidableEq, Repr

/-- osmjs/osmjs.cpp 228-266: the plan.  In the branch with two passes `*store_pos` (247) is undefined without a
store. -/
def planOf (v : OjVars) : Res OjPlan :=
  if v.twoPasses then
    if v.store = .none then .error .ub else .ok (.assemble v.store v.repair)
  else if v.store = .none then .ok .plain
  else .ok (.located v.store)

/-- osmjs/osmjs.cpp 180-224, 243-266: what follows the option loop; `operands` are the arguments that are not
options (on Linux, where `-l array` is available). -/
def afterOptions (v : OjVars) (operands : List String) : Res OjOutcome :=
  if v.javascript = "" then .ok (.exit 1)
  else
    match operands with
    | [] => .ok (.exit 1)
    | file :: args =>
      if v.twoPasses && file = "-" then .ok (.exit 1)
      else if v.multipolygon && v.store = .none then .ok (.exit 1)
      else
        match planOf v with
        | .error e => .error e
        | .ok plan => .ok (.run file args v.includes v.javascript plan (v.twoPasses && !v.multipolygon))

/-- osmjs/osmjs.cpp 98-274 `main`, up to the reading of the file. -/
def osmjsMain (env : OjEnv) (options : List OjOption) (operands : List String) : Res OjOutcome :=
  match optionLoop env {} options with
  | .error e => .error e
  | .ok (.exit c) => .ok (.exit c)
  | .ok (.vars v) => afterOptions v operands

namespace Spec

/-- The names of the location stores (osmjs/osmjs.cpp 58-64). -/
def storeNames : List (String × LocationStore) :=
  [("none", .none), ("array", .array), ("disk", .disk), ("sparsetable", .sparsetable), ("vector", .vector)]

/-- The last of the values that options have. (specification, no counterpart in /repo) -/
def lastOf {α : Type} (f : OjOption → Option α) (default : α) (os : List OjOption) : α :=
  (os.filterMap f).getLast?.getD default

/-- The script asked for, the store asked for. (specification, no counterpart in /repo) -/
def askedScript (os : List OjOption) : String :=
  lastOf (fun | .javascript f => some f | _ => none) "" os
/-- Specification, no counterpart in /repo. -/
def askedStore (os : List OjOption) : LocationStore :=
  lastOf (fun | .locationStore n => storeNames.lookup n | _ => none) .none os

/-- The files included, as they are found. (specification, no counterpart in /repo) -/
def askedIncludes (find : String → Option String) (os : List OjOption) : List String :=
  os.filterMap fun | .incl f => find f | _ => none

/-- Nothing on the command line ends the program: no `-h`, no unknown option or store, all includes are there.
(specification, no counterpart in /repo) -/
def Acceptable (find : String → Option String) (o : OjOption) : Prop :=
  match o with
  | .help => False
  | .other => False
  | .locationStore n => storeNames.lookup n ≠ none
  | .incl f => find f ≠ none
  | _ => True

/-- Where an include file is looked for: the name with the suffix `.js` if it has no dot, in the root directory,
the current directory, `js`, `.osmjs` in the home directory and two directories of the system; the first one
that can be read. (specification, no counterpart in /repo) -/
def includeFile (readable : String → Bool) (home : String) (file : String) : Option String :=
  let name := if '.' ∈ file.toList then file else file ++ ".js"
  ["//" ++ name, "./" ++ name, "js/" ++ name, home ++ "/.osmjs/" ++ name, "/usr/local/share/osmjs/" ++ name,
    "/usr/share/osmjs/" ++ name].find? readable

end Spec
open Spec

theorem storeOfName_eq (n : String) : storeOfName n = storeNames.lookup n := by
  unfold storeOfName storeNames
  by_cases h1 : n = "none"
  · subst h1; decide
  by_cases h2 : n = "array"
  · subst h2; decide
  by_cases h3 : n = "disk"
  · subst h3; decide
  by_cases h4 : n = "vector"
  · subst h4; decide
  by_cases h5 : n = "sparsetable"
  · subst h5; decide
  rw [if_neg h1, if_neg h2, if_neg h3, if_neg h4, if_neg h5]
  have b : ∀ s : String, n ≠ s → (n == s) = false := fun s h => by simpa using h
  simp [List.lookup, b, h1, h2, h3, h4, h5]

theorem findInclude_eq (env : OjEnv) (home file : String) (h : env.home = some home) :
    findInclude env file = .ok (includeFile env.readable home file) := by
  have hs : withSuffix file = if '.' ∈ file.toList then file else file ++ ".js" := by
    unfold withSuffix
    by_cases hd : '.' ∈ file.toList <;> simp [hd]
  unfold findInclude includeDirs includeFile
  rw [h, hs]
  simp only [List.map_cons, List.map_nil]
  generalize (if '.' ∈ file.toList then file else file ++ ".js") = name
  have e1 : ("/" ++ "/" ++ name : String) = "//" ++ name := by rfl
  have e2 : ("." ++ "/" ++ name : String) = "./" ++ name := by rfl
  have e3 : ("js" ++ "/" ++ name : String) = "js/" ++ name := by rfl
  have e4 : (home ++ "/.osmjs" ++ "/" ++ name : String) = home ++ "/.osmjs/" ++ name := by
    simp only [String.append_assoc]; rfl
  have e5 : ("/usr/local/share/osmjs" ++ "/" ++ name : String) = "/usr/local/share/osmjs/" ++ name := by rfl
  have e6 : ("/usr/share/osmjs" ++ "/" ++ name : String) = "/usr/share/osmjs/" ++ name := by rfl
  rw [e1, e2, e3, e4, e5, e6]

theorem lastOf_cons {α : Type} (f : OjOption → Option α) (d : α) (o : OjOption) (os : List OjOption) :
    lastOf f d (o :: os) = lastOf f ((f o).getD d) os := by
  unfold lastOf
  cases h : f o with
  | none => simp [List.filterMap_cons, h]
  | some a =>
    rw [List.filterMap_cons, h]
    dsimp only
    rw [List.getLast?_cons]
    rfl

theorem optionLoop_eq (env : OjEnv) (home : String) (hh : env.home = some home) (os : List OjOption)
    (ha : ∀ o ∈ os, Acceptable (includeFile env.readable home) o) (v : OjVars) :
    optionLoop env v os = .ok (.vars
      { twoPasses := v.twoPasses || os.contains .twoPass || os.contains .multipolygon
        repair := v.repair && !os.contains .noRepair
        javascript := lastOf (fun | .javascript f => some f | _ => none) v.javascript os
        includes := v.includes ++ askedIncludes (includeFile env.readable home) os
        store := lastOf (fun | .locationStore n => storeNames.lookup n | _ => none) v.store os
        debug := v.debug || os.contains .debug
        multipolygon := v.multipolygon || os.contains .multipolygon }) := by
  induction os generalizing v with
  | nil => simp [optionLoop, lastOf, askedIncludes]
  | cons o os ih =>
    have ha' := fun o ho => ha o (List.mem_cons_of_mem _ ho)
    have h0 := ha o (by simp)
    rw [lastOf_cons, lastOf_cons]
    cases o with
    | debug => rw [optionLoop, ih ha']; simp [askedIncludes]
    | incl f =>
      rw [optionLoop, findInclude_eq env home f hh]
      cases hf : includeFile env.readable home f with
      | none => exact absurd hf h0
      | some p =>
        dsimp only
        rw [ih ha']
        simp [askedIncludes, hf]
    | javascript f => rw [optionLoop, ih ha']; simp [askedIncludes]
    | help => exact h0.elim
    | locationStore n =>
      rw [optionLoop, storeOfName_eq]
      cases hf : storeNames.lookup n with
      | none => exact absurd hf h0
      | some p =>
        dsimp only
        rw [ih ha', hf]
        simp [askedIncludes]
    | noRepair => rw [optionLoop, ih ha']; simp [askedIncludes]
    | twoPass => rw [optionLoop, ih ha']; simp [askedIncludes]
    | multipolygon => rw [optionLoop, ih ha']; simp [askedIncludes]
    | other => exact h0.elim

/-- **C82** (partial: options `-2` and `-m` come together, or not at all).  For every command line whose options
are acceptable and every environment with a home directory.  The program ends with an error iff there is no
script, no OSM file, standard input is to be read twice, or multipolygons are to be made without a location store.
Otherwise the script given last is run with all includes in order and all other arguments; the file is read twice
with multipolygons made iff `-m` is given, with the locations of the store given last. -/
theorem osmjs_plan_partial (env : OjEnv) (home : String) (hh : env.home = some home) (os : List OjOption)
    (operands : List String) (ha : ∀ o ∈ os, Acceptable (includeFile env.readable home) o)
    (h2 : .twoPass ∈ os → .multipolygon ∈ os) :
    osmjsMain env os operands =
      .ok (if askedScript os = "" ∨ operands = [] ∨ (.multipolygon ∈ os ∧ operands.head? = some "-") ∨
          (.multipolygon ∈ os ∧ askedStore os = .none) then .exit 1
        else .run (operands.headD "") operands.tail (askedIncludes (includeFile env.readable home) os) (askedScript os)
          (if .multipolygon ∈ os then .assemble (askedStore os) (.noRepair ∉ os)
           else if askedStore os = .none then .plain else .located (askedStore os)) false) := by
  unfold osmjsMain
  rw [optionLoop_eq env home hh os ha]
  have e1 : (false || os.contains .twoPass || os.contains .multipolygon) = decide (OjOption.multipolygon ∈ os) := by
    by_cases hm : OjOption.multipolygon ∈ os
    · simp [hm]
    · have : OjOption.twoPass ∉ os := fun h => hm (h2 h)
      simp [hm, this]
  have e2 : (false || os.contains OjOption.multipolygon) = decide (OjOption.multipolygon ∈ os) := by simp
  have e3 : (true && !os.contains OjOption.noRepair) = decide (OjOption.noRepair ∉ os) := by simp
  dsimp only
  rw [e1, e2, e3]
  change afterOptions
    { twoPasses := decide (OjOption.multipolygon ∈ os), repair := decide (OjOption.noRepair ∉ os),
      javascript := askedScript os, includes := [] ++ askedIncludes (includeFile env.readable home) os,
      store := askedStore os, debug := _, multipolygon := decide (OjOption.multipolygon ∈ os) } operands = _
  rw [List.nil_append]
  generalize askedScript os = js
  generalize askedStore os = st
  unfold afterOptions planOf
  dsimp only
  by_cases hj : js = ""
  · simp [hj]
  rw [if_neg hj]
  cases operands with
  | nil => simp
  | cons file args =>
    dsimp only
    by_cases hm : OjOption.multipolygon ∈ os
    · by_cases hf : file = "-"
      · simp [hm, hf]
      · by_cases hs : st = .none
        · simp [hm, hf, hs]
        · simp [hm, hf, hs, hj]
    · by_cases hs : st = .none
      · simp [hm, hs, hj]
      · simp [hm, hs, hj]

/-- A command line that is not acceptable ends the program with the code for the first option that is not: 0 for
`-h` and 1 otherwise. -/
theorem osmjs_not_acceptable (env : OjEnv) (home : String) (hh : env.home = some home) (before after : List OjOption)
    (o : OjOption) (operands : List String) (ha : ∀ o ∈ before, Acceptable (includeFile env.readable home) o)
    (ho : ¬ Acceptable (includeFile env.readable home) o) :
    osmjsMain env (before ++ o :: after) operands = .ok (.exit (if o = .help then 0 else 1)) := by
  have app : ∀ (a b : List OjOption) (v : OjVars), (∀ o ∈ a, Acceptable (includeFile env.readable home) o) →
      ∃ v', optionLoop env v (a ++ b) = optionLoop env v' b := by
    intro a b
    induction a with
    | nil => exact fun v _ => ⟨v, rfl⟩
    | cons x a ih =>
      intro v hx
      have hx' := fun o ho => hx o (List.mem_cons_of_mem _ ho)
      have h0 := hx x (by simp)
      rw [List.cons_append]
      cases x with
      | incl f =>
        rw [optionLoop, findInclude_eq env home f hh]
        cases hf : includeFile env.readable home f with
        | none => exact absurd hf h0
        | some p => exact ih _ hx'
      | locationStore n =>
        rw [optionLoop, storeOfName_eq]
        cases hf : storeNames.lookup n with
        | none => exact absurd hf h0
        | some p => exact ih _ hx'
      | help => exact h0.elim
      | other => exact h0.elim
      | debug => rw [optionLoop]; exact ih _ hx'
      | javascript f => rw [optionLoop]; exact ih _ hx'
      | noRepair => rw [optionLoop]; exact ih _ hx'
      | twoPass => rw [optionLoop]; exact ih _ hx'
      | multipolygon => rw [optionLoop]; exact ih _ hx'
  obtain ⟨v', hv⟩ := app before (o :: after) {} ha
  unfold osmjsMain
  rw [hv]
  cases o with
  | incl f =>
    rw [optionLoop, findInclude_eq env home f hh]
    have : includeFile env.readable home f = none := by
      by_contra h
      exact ho h
    rw [this]
    rfl
  | locationStore n =>
    rw [optionLoop, storeOfName_eq]
    have : storeNames.lookup n = none := by
      by_contra h
      exact ho h
    rw [this]
    rfl
  | help => rfl
  | other => rfl
  | debug => exact absurd trivial ho
  | javascript f => exact absurd trivial ho
  | noRepair => exact absurd trivial ho
  | twoPass => exact absurd trivial ho
  | multipolygon => exact absurd trivial ho

/-- What is missing: with `-2` and a store but without `-m` the program warns that multipolygons are only made
with `-m`, and makes them as with `-m`; ... -/
theorem osmjs_two_pass_assembles (env : OjEnv) (home : String) (hh : env.home = some home) (os : List OjOption)
    (operands : List String) (ha : ∀ o ∈ os, Acceptable (includeFile env.readable home) o)
    (h2 : .twoPass ∈ os) (hm : .multipolygon ∉ os) (hj : askedScript os ≠ "") (hs : askedStore os ≠ .none)
    (file : String) (args : List String) (ho : operands = file :: args) (hf : file ≠ "-") :
    osmjsMain env os operands =
      .ok (.run file args (askedIncludes (includeFile env.readable home) os) (askedScript os)
        (.assemble (askedStore os) (.noRepair ∉ os)) true) := by
  subst ho
  unfold osmjsMain
  rw [optionLoop_eq env home hh os ha]
  have e1 : (false || os.contains .twoPass || os.contains OjOption.multipolygon) = true := by simp [h2]
  have e2 : (false || os.contains OjOption.multipolygon) = false := by simp [hm]
  have e3 : (true && !os.contains OjOption.noRepair) = decide (OjOption.noRepair ∉ os) := by simp
  dsimp only
  rw [e1, e2, e3]
  change afterOptions
    { twoPasses := true, repair := decide (OjOption.noRepair ∉ os),
      javascript := askedScript os, includes := [] ++ askedIncludes (includeFile env.readable home) os,
      store := askedStore os, debug := _, multipolygon := false } (file :: args) = _
  rw [List.nil_append]
  unfold afterOptions planOf
  simp [hj, hs, hf]

/-- ... without a store it is undefined behaviour. -/
theorem osmjs_two_pass_without_store (env : OjEnv) (home : String) (hh : env.home = some home) (os : List OjOption)
    (operands : List String) (ha : ∀ o ∈ os, Acceptable (includeFile env.readable home) o)
    (h2 : .twoPass ∈ os) (hm : .multipolygon ∉ os) (hj : askedScript os ≠ "") (hs : askedStore os = .none)
    (file : String) (args : List String) (ho : operands = file :: args) (hf : file ≠ "-") :
    osmjsMain env os operands = .error .ub := by
  subst ho
  unfold osmjsMain
  rw [optionLoop_eq env home hh os ha]
  have e1 : (false || os.contains .twoPass || os.contains OjOption.multipolygon) = true := by simp [h2]
  have e2 : (false || os.contains OjOption.multipolygon) = false := by simp [hm]
  dsimp only
  rw [e1, e2]
  change afterOptions
    { twoPasses := true, repair := _, javascript := askedScript os, includes := _,
      store := askedStore os, debug := _, multipolygon := false } (file :: args) = _
  unfold afterOptions planOf
  simp [hj, hs, hf]

/-- Without a variable `HOME`, an option `-i` is undefined behaviour. -/
theorem osmjs_include_without_home (env : OjEnv) (hh : env.home = none) (f : String) (os : List OjOption)
    (operands : List String) : osmjsMain env (.incl f :: os) operands = .error .ub := by
  unfold osmjsMain
  rw [optionLoop]
  unfold findInclude includeDirs
  rw [hh]

/-- Outcomes can be compared. -/
instance decEqOjRes : DecidableEq (Except Fail OjOutcome)
  | .ok a, .ok b => if h : a = b then isTrue (h ▸ rfl) else isFalse fun e => h (by injection e)
  | .error a, .error b => if h : a = b then isTrue (h ▸ rfl) else isFalse fun e => h (by injection e)
  | .ok _, .error _ => isFalse fun e => by injection e
  | .error _, .ok _ => isFalse fun e => by injection e

/-- Data for the examples, no counterpart in /repo. -/
private def demoOj : OjEnv := ⟨fun f => f = "./a.js" || f = "//etc/b.js", some "/home/x"⟩

/-- Concrete command lines. -/
example : osmjsMain demoOj [.incl "a", .locationStore "disk", .multipolygon, .javascript "x.js", .locationStore "array", .noRepair]
    ["f.osm", "arg"] = .ok (.run "f.osm" ["arg"] ["./a.js"] "x.js" (.assemble .array false) false) ∧
    osmjsMain demoOj [.javascript "x.js"] ["-"] = .ok (.run "-" [] [] "x.js" .plain false) ∧
    osmjsMain demoOj [.javascript "x.js", .multipolygon, .locationStore "array"] ["-"] = .ok (.exit 1) ∧
    osmjsMain demoOj [.locationStore "list", .help] [] = .ok (.exit 1) ∧
    includeFile demoOj.readable "/home/x" "etc/b.js" = some "//etc/b.js" ∧
    includeFile demoOj.readable "/home/x" "../a" = none := by
  decide +kernel

/-- The hypotheses of the theorems can be met. -/
example : (∀ o ∈ [OjOption.incl "a", .locationStore "disk", .twoPass, .javascript "x.js"],
      Acceptable (includeFile demoOj.readable "/home/x") o) ∧
    askedScript [OjOption.incl "a", .locationStore "disk", .twoPass, .javascript "x.js"] = "x.js" ∧
    askedStore [OjOption.incl "a", .locationStore "disk", .twoPass, .javascript "x.js"] = .disk := by
  refine ⟨?_, by decide +kernel, by decide +kernel⟩
  intro o ho
  simp only [List.mem_cons, List.not_mem_nil, or_false] at ho
  rcases ho with rfl | rfl | rfl | rfl
  · show includeFile demoOj.readable "/home/x" "a" ≠ none
    decide +kernel
  · show storeNames.lookup "disk" ≠ none
    decide +kernel
  · trivial
  · trivial

end Osmium

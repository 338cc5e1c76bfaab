import Verif.OsmFile.Model
import Mathlib.Data.List.Basic

/-
C60: the registry of output formats (output.hpp).
-/
namespace Osmium

/-- output.hpp 86: `encoding2create_t`, the map from encodings to functions (`F` stands for the
function pointers). -/
abbrev OutputRegistry (F : Type) := List (FileEncoding × F)

/-- output.hpp 97-99 `register_output_format`: `insert` does nothing if the key is there. -/
def OutputRegistry.register {F : Type} (m : OutputRegistry F) (e : FileEncoding) (f : F) :
    OutputRegistry F × Bool :=
  match m.lookup e with
  | some _ => (m, false)
  | none => ((e, f) :: m, true)

/-- output.hpp 101-103 `unregister_output_format`. -/
def OutputRegistry.unregister {F : Type} (m : OutputRegistry F) (e : FileEncoding) : OutputRegistry F × Bool :=
  (m.filter (fun p => p.1 ≠ e), (m.lookup e).isSome)

/-- output.hpp 105-113 `create_output`: the function called for the file. -/
def OutputRegistry.create {F : Type} (m : OutputRegistry F) (f : FileInfo) : Res F :=
  match m.lookup f.encoding with
  | some g => .ok g
  | none => .error (.exn "FileEncodingNotSupported")

/-- The calls. (output.hpp 97-112) -/
inductive FactoryOp (F : Type)
  | register (e : FileEncoding) (f : F)
  | unregister (e : FileEncoding)
  | create (f : FileInfo)

/-- The results. (output.hpp 97-112) -/
inductive FactoryResult (F : Type)
  | bool (b : Bool)
  | created (r : Res F)

/-- One call. (output.hpp 97-112) -/
def OutputRegistry.step {F : Type} (m : OutputRegistry F) : FactoryOp F → OutputRegistry F × FactoryResult F
  | .register e f => ((m.register e f).1, .bool (m.register e f).2)
  | .unregister e => ((m.unregister e).1, .bool (m.unregister e).2)
  | .create f => (m, .created (m.create f))

/-- All calls, in order. (part of a program using the library, no counterpart in /repo) -/
def OutputRegistry.run {F : Type} (m : OutputRegistry F) : List (FactoryOp F) → List (FactoryResult F)
  | [] => []
  | op :: ops => (m.step op).2 :: OutputRegistry.run (m.step op).1 ops

namespace Spec

/-- The function in force for an encoding after a history: the one of the first registration after the
last unregistration. (specification, no counterpart in /repo) -/
def inForce {F : Type} (e : FileEncoding) (history : List (FactoryOp F)) : Option F :=
  let since := (history.reverse.takeWhile fun | .unregister e' => decide (e' ≠ e) | _ => true).reverse
  since.findSome? fun | .register e' f => if e' = e then some f else none | _ => none

/-- The result of a call after a history. (specification, no counterpart in /repo) -/
def factoryResult {F : Type} (history : List (FactoryOp F)) : FactoryOp F → FactoryResult F
  | .register e _ => .bool (inForce e history).isNone
  | .unregister e => .bool (inForce e history).isSome
  | .create f =>
    match inForce f.encoding history with
    | some g => .created (.ok g)
    | none => .created (.error (.exn "FileEncodingNotSupported"))

end Spec

open Spec

theorem inForce_append {F : Type} (e : FileEncoding) (h : List (FactoryOp F)) (op : FactoryOp F) :
    inForce e (h ++ [op]) =
      match op with
      | .unregister e' => if e' = e then none else inForce e h
      | .register e' f => if e' = e then (inForce e h).or (some f) else inForce e h
      | .create _ => inForce e h := by
  unfold inForce
  rw [List.reverse_append, List.reverse_singleton, List.singleton_append, List.takeWhile_cons]
  cases op with
  | unregister e' =>
    by_cases he : e' = e
    · simp [he]
    · simp [he, List.findSome?_append]
  | register e' f =>
    by_cases he : e' = e
    · simp [he, List.findSome?_append]
    · simp [he, List.findSome?_append]
  | create f => simp [List.findSome?_append]

theorem lookup_filter_ne_enc {F : Type} (m : OutputRegistry F) (e k : FileEncoding) :
    List.lookup k (m.filter (fun p => p.1 ≠ e)) = if e = k then none else List.lookup k m := by
  induction m with
  | nil => simp
  | cons p m ih =>
    obtain ⟨a, b⟩ := p
    by_cases h : a = e
    · subst h
      rw [List.filter_cons_of_neg (by simp), ih]
      by_cases h2 : a = k
      · simp [h2]
      · have : (k == a) = false := by simpa using fun e => h2 e.symm
        simp [h2, List.lookup_cons, this]
    · rw [List.filter_cons_of_pos (by simpa using h), List.lookup_cons, List.lookup_cons, ih]
      by_cases h2 : e = k
      · have : (k == a) = false := by simpa using fun h3 => h (by rw [h2, h3])
        simp [h2, this]
      · simp [h2]

theorem step_lookup {F : Type} (m : OutputRegistry F) (h : List (FactoryOp F))
    (hm : ∀ e, List.lookup e m = inForce e h) (op : FactoryOp F) :
    (m.step op).2 = factoryResult h op ∧ ∀ e, List.lookup e (m.step op).1 = inForce e (h ++ [op]) := by
  cases op with
  | register e f =>
    have hr : m.register e f = match inForce e h with | some _ => (m, false) | none => ((e, f) :: m, true) := by
      unfold OutputRegistry.register; rw [hm]
    constructor
    · simp only [OutputRegistry.step, factoryResult, hr]
      cases inForce e h <;> rfl
    · intro k
      simp only [OutputRegistry.step, hr, inForce_append]
      cases hi : inForce e h with
      | none =>
        simp only [List.lookup_cons]
        by_cases he : e = k
        · subst he; simp [hi]
        · have : (k == e) = false := by simpa using fun h => he h.symm
          simp [he, this, hm]
      | some g =>
        simp only [hm]
        by_cases he : e = k
        · subst he; simp [hi]
        · simp [he]
  | unregister e =>
    constructor
    · simp only [OutputRegistry.step, factoryResult, OutputRegistry.unregister, hm]
    · intro k
      simp only [OutputRegistry.step, OutputRegistry.unregister, inForce_append, lookup_filter_ne_enc, hm]
  | create f =>
    constructor
    · simp only [OutputRegistry.step, factoryResult, OutputRegistry.create, hm]
      cases inForce f.encoding h <;> rfl
    · intro k
      simp only [OutputRegistry.step, inForce_append, hm]

/-- C60: for every sequence of calls, the result of each call depends on the calls before it as stated:
the function registered first since the last unregistration is in force. -/
theorem output_factory {F : Type} (ops : List (FactoryOp F)) :
    (OutputRegistry.run [] ops).length = ops.length ∧
    ∀ (before : List (FactoryOp F)) (op : FactoryOp F) (after : List (FactoryOp F)),
      ops = before ++ op :: after →
      (OutputRegistry.run [] ops)[before.length]? = some (factoryResult before op) := by
  have gen : ∀ (ops : List (FactoryOp F)) (m : OutputRegistry F) (h : List (FactoryOp F)),
      (∀ e, List.lookup e m = inForce e h) →
      (OutputRegistry.run m ops).length = ops.length ∧
      ∀ before op after, ops = before ++ op :: after →
        (OutputRegistry.run m ops)[before.length]? = some (factoryResult (h ++ before) op) := by
    intro ops
    induction ops with
    | nil => intro m h _; exact ⟨rfl, by intro b op a e; simp at e⟩
    | cons op ops ih =>
      intro m h hm
      obtain ⟨h1, h2⟩ := step_lookup m h hm op
      obtain ⟨i1, i2⟩ := ih _ _ h2
      refine ⟨by simp [OutputRegistry.run, i1], ?_⟩
      intro before op' after e
      cases before with
      | nil =>
        simp only [List.nil_append, List.cons.injEq] at e
        obtain ⟨rfl, rfl⟩ := e
        simp [OutputRegistry.run, h1]
      | cons b bs =>
        simp only [List.cons_append, List.cons.injEq] at e
        obtain ⟨rfl, rfl⟩ := e
        have := i2 bs op' after rfl
        simpa [OutputRegistry.run, List.append_assoc] using this
  have := gen ops [] [] (by intro e; rfl)
  exact ⟨this.1, fun b op a e => by simpa using this.2 b op a e⟩

/-- A history with everything: registered twice, unregistered, registered again. -/
example : (let ops : List (FactoryOp Nat) := [.register .pbf 1, .register .pbf 2, .unregister .pbf, .register .pbf 3, .register .xml 4]
    inForce .pbf (ops.take 2) = some 1 ∧ inForce .pbf (ops.take 3) = none ∧ inForce .pbf ops = some 3 ∧
    inForce .xml ops = some 4 ∧ inForce .xmlgz ops = none) := by decide +kernel

end Osmium

/-
Outcomes of modelled C++ functions.
-/
namespace Osmium

/-- How a modelled function can fail to return. (`ub`: undefined behaviour in C++; `assertion`: a
failing `assert`; `exn`: a C++ exception; used for the whole of /repo) (for example exceptions in input/pbf.hpp 94-105,
`assert` in input/pbf.hpp 451) -/
inductive Fail
  /-- undefined behaviour (signed overflow, out-of-range access, ...) -/
  | ub
  /-- a failing `assert` -/
  | assertion
  /-- a C++ exception -/
  | exn (what : String)
deriving DecidableEq, Repr

/-- Outcome: a value, or a failure. (a call of a C++ function of /repo) (for example exceptions in input/pbf.hpp 94-105,
`assert` in input/pbf.hpp 451) -/
abbrev Res (α : Type) := Except Fail α

/-- `none` means undefined behaviour. (helper for statements and proofs, no counterpart in /repo) -/
def Res.ofOption {α : Type} : Option α → Res α
  | none => .error .ub
  | some a => .ok a

@[simp] theorem Res.ofOption_some {α : Type} (a : α) : Res.ofOption (some a) = .ok a := rfl
@[simp] theorem Res.ofOption_none {α : Type} : Res.ofOption (none : Option α) = .error .ub := rfl

end Osmium

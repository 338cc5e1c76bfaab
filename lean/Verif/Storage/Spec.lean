import Verif.Storage.Model
import Mathlib.Data.List.Basic
import Mathlib.Data.Finset.Dedup
import Mathlib.Data.Finset.Card

/-
What a storage by id is supposed to do, in terms of the history of `set` calls.
-/
namespace Osmium.Spec

/-- In the history the last `set` for `id` gave `v`. -/
def LastSet {V : Type} (ops : List (Nat × V)) (id : Nat) (v : V) : Prop :=
  ∃ before after, ops = before ++ (id, v) :: after ∧ ∀ o ∈ after, o.1 ≠ id

/-- `id` was never set. -/
def NeverSet {V : Type} (ops : List (Nat × V)) (id : Nat) : Prop := ∀ o ∈ ops, o.1 ≠ id

/-- After any history allowed by `ok` no call failed; every id answers with the value last set,
and every id never set with `unset id`. -/
def Faithful {S V : Type} (st : IdStore S V) (ok : List (Nat × V) → Prop)
    (unset : Nat → Res V) : Prop :=
  ∀ ops, ok ops → ∃ s, st.fill ops = .ok s ∧
    (∀ id v, LastSet ops id v → st.get s id = .ok v) ∧
    (∀ id, id < 2 ^ 64 → NeverSet ops id → st.get s id = unset id)

/-- All ids of the history are `uint64_t` values. -/
def Ids {V : Type} (ops : List (Nat × V)) : Prop := ∀ o ∈ ops, o.1 < 2 ^ 64

/-- The ids set, each once. -/
def idSet {V : Type} (ops : List (Nat × V)) : Finset Nat := (ops.map Prod.fst).toFinset

/-- The number of mapped items: starts at `init`, and setting an id past the end makes it
that id plus the increment `inc`. -/
def mappedSize (inc init : Nat) : List Nat → Nat
  | [] => init
  | id :: ids => mappedSize inc (if id < init then init else id + inc) ids

end Osmium.Spec

import Verif.Input.Model
import Mathlib.Data.List.Infix
/-
Calls on a handler that may stop.
-/
namespace Osmium

theorem deliver_append (h : Stops) (done a b : List Cb) :
    deliver h done (a ++ b) =
      match deliver h done a with
      | (d, true) => (d, true)
      | (d, false) => deliver h d b := by
  induction a generalizing done with
  | nil => simp [deliver]
  | cons c a ih =>
    simp only [List.cons_append, deliver]
    split
    · rfl
    · exact ih _

theorem deliver_prefix (h : Stops) (done a : List Cb) : done <+: (deliver h done a).1 := by
  induction a generalizing done with
  | nil => simp [deliver]
  | cons c a ih =>
    simp only [deliver]
    split
    · simp
    · exact (List.prefix_append done [c]).trans (ih _)

end Osmium

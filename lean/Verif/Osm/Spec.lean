/-
Independent specification vocabulary for the properties of the basic data types.
Nothing in this file refers to the model.
-/
namespace Osmium.Spec

/-- `lt` is a strict total order: irreflexive, transitive, and any two different elements
are comparable. -/
structure StrictTotalOrder {α : Type} (lt : α → α → Prop) : Prop where
  irrefl : ∀ a, ¬ lt a a
  trans : ∀ a b c, lt a b → lt b c → lt a c
  tri : ∀ a b, lt a b ∨ a = b ∨ lt b a

/-- What the C++ standard requires of the comparison passed to `std::sort` or used in
`std::set`, on the elements satisfying `S`: irreflexive, transitive, and "neither is less"
is transitive. -/
structure StrictWeakOrderOn {α : Type} (S : α → Prop) (lt : α → α → Prop) : Prop where
  irrefl : ∀ a, S a → ¬ lt a a
  trans : ∀ a b c, S a → S b → S c → lt a b → lt b c → lt a c
  incomp_trans : ∀ a b c, S a → S b → S c →
    (¬ lt a b ∧ ¬ lt b a) → (¬ lt b c ∧ ¬ lt c b) → (¬ lt a c ∧ ¬ lt c a)

/-- `m` is the minimum of `f` over the list. -/
def IsMinOf {α : Type} (f : α → Int) (l : List α) (m : Int) : Prop :=
  (∃ a ∈ l, f a = m) ∧ ∀ a ∈ l, m ≤ f a

/-- `m` is the maximum of `f` over the list. -/
def IsMaxOf {α : Type} (f : α → Int) (l : List α) (m : Int) : Prop :=
  (∃ a ∈ l, f a = m) ∧ ∀ a ∈ l, f a ≤ m

end Osmium.Spec

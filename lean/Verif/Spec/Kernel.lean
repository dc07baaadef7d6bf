import Verif.Spec.Shows
import Verif.Spec.Sums
import Verif.Model.Layers
/-!
# Specification vocabulary for the convolution layer (C33 – C36)
-/
namespace Cnn

/-- A convolution layer of `F` filters of size `A × B × C`, with weights `w a b (f*C + c)` and biases `β f`. -/
structure Kernel.Is {α : Type} (K : Kernel α) (A B C F stride : Nat) (w : Nat → Nat → Nat → α) (β : Nat → α) : Prop where
  dim : K.dim = dimN A B C
  num : K.numFilters = F
  stride : K.stride = stride
  weights : K.weights.Shows A B (C * F) w
  biases : K.biases.Shows F 1 1 (fun f _ _ => β f)

/-- The output of a convolution layer as a formula. -/
def convLayer {α : Type} [NonUnitalNonAssocSemiring α] (A B C : Nat) (w : Nat → Nat → Nat → α) (β : Nat → α)
    (x : Nat → Nat → Nat → α) (i j f : Nat) : α :=
  β f + ∑ c ∈ Finset.range C, ∑ a ∈ Finset.range A, ∑ b ∈ Finset.range B, x (i + a) (j + b) c * w a b (f * C + c)

/-- Sizes a layer can process: the input covers the filter and the output has fewer than 2^31 entries. -/
structure ConvFits (X Y A B F : Nat) : Prop where
  x : A ≤ X
  y : B ≤ Y
  out : (X - A + 1) * (Y - B + 1) * F < 2147483648

end Cnn

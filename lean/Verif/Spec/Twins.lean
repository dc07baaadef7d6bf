import Verif.Spec.Net
/-! Specification for C106: two units of a fully connected layer that cannot be told apart. -/
namespace Cnn

/-- Units `i` and `j` of a layer with the parameters `w`, `β`, followed by an activation and a fully connected layer with the
weights `w₂`, have the same weights and biases, and the next layer uses them in the same way. -/
def Twins (i j : Nat) (w : Tensor) (β : Nat → ℝ) (w₂ : Tensor) : Prop := (∀ k, w i k 0 = w j k 0) ∧ β i = β j ∧ ∀ a, w₂ a i 0 = w₂ a j 0

end Cnn

import Verif.Spec.Linear
/-! Specification for C105: units of a fully connected layer that are off. -/
namespace Cnn

/-- Unit `i` of a fully connected layer with the parameters `w`, `β`, after the layers `init`, computes no positive number for
any of the inputs. -/
def Silent (init : List NetLayer) (s : Shape) (w : Tensor) (β : Nat → ℝ) (i : Nat) (data : Tensor → Prop) : Prop :=
  ∀ x, data x → β i + ∑ k ∈ Finset.range (featureCount init s), w i k 0 * feature init s x k ≤ 0

end Cnn

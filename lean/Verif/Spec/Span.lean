import Verif.Spec.Linear
import Mathlib.LinearAlgebra.Span.Basic
/-! Specification for C107: the numbers that enter a fully connected layer, as vectors. -/
namespace Cnn

/-- What the layers `init` hand on for an input. -/
noncomputable def featureVector (init : List NetLayer) (s : Shape) (x : Tensor) : Fin (featureCount init s) → ℝ := fun k => feature init s x k

/-- The changes of the weights of each unit are linear combinations of what enters the layer for the inputs. -/
def MovesWithin (init : List NetLayer) (s : Shape) (w w' : Tensor) (data : Tensor → Prop) : Prop :=
  ∀ i, (fun k : Fin (featureCount init s) => w' i k 0 - w i k 0) ∈ Submodule.span ℝ {v | ∃ x, data x ∧ v = featureVector init s x}

end Cnn

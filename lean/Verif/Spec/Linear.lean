import Verif.Spec.Descent
import Verif.Spec.Build
/-!
# Networks whose only parameters are those of the last layer (C92)
-/
namespace Cnn

/-- No layer has parameters. -/
def NoParams (ls : List NetLayer) : Prop := ∀ l ∈ ls, l.params = none

/-- The call adds a pooling or an activation layer. -/
def LayerKind.Plain : LayerKind → Prop
  | .pool .. => True
  | .act _ => True
  | _ => False

/-- The number of entries the layers `init` hand on, and the entries. -/
def featureCount (init : List NetLayer) (s : Shape) : Nat := (netOut init s).X * (netOut init s).Y * (netOut init s).Z

noncomputable def feature (init : List NetLayer) (s : Shape) (x : Tensor) : Nat → ℝ := flatOf (netOut init s).X (netOut init s).Y (netEval init s x)

/-- The square of the distance between two choices of the parameters of a fully connected layer with `n` outputs and `K` inputs. -/
noncomputable def paramDist (n K : Nat) (w : Tensor) (β : Nat → ℝ) (w' : Tensor) (β' : Nat → ℝ) : ℝ :=
  ∑ i ∈ Finset.range n, (∑ k ∈ Finset.range K, (w i k 0 - w' i k 0) ^ 2 + (β i - β' i) ^ 2)

/-- The network gives the right label the greatest value, for every sample. -/
def Separates (ls : List NetLayer) (s : Shape) (n : Nat) (data : List (Tensor × Nat)) : Prop :=
  ∀ d ∈ data, ∀ i < n, i ≠ d.2 → netProb ls s n d.1 i < netProb ls s n d.1 d.2

/-- The last layer gives the right label at least 1 more than every other label, for every sample. -/
def Margin (init : List NetLayer) (s : Shape) (n : Nat) (data : List (Tensor × Nat)) (w : Tensor) (β : Nat → ℝ) : Prop :=
  ∀ d ∈ data, ∀ i < n, i ≠ d.2 → β i + ∑ k ∈ Finset.range (featureCount init s), w i k 0 * feature init s d.1 k + 1 ≤
    β d.2 + ∑ k ∈ Finset.range (featureCount init s), w d.2 k 0 * feature init s d.1 k

/-- The samples of `source`, in some order, are those of `d`. -/
def Train.SameData (labels : List (List Char)) (s : Shape) (d : List (Tensor × Nat)) (source : List (Sample ℝ)) : Prop :=
  ∃ es, es.Perm d ∧ List.Forall₂ (Sample.Is labels s) source es

end Cnn

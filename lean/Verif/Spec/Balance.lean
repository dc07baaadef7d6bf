import Verif.Spec.Linear
/-! Specification for C104: sums over the labels of the parameters of the last layer. -/
namespace Cnn

/-- For a last layer with `n` outputs and `K` inputs: over all outputs, the weights of each input add up to the same, and so do
the biases. -/
def SameSums (n K : Nat) (w : Tensor) (β : Nat → ℝ) (w' : Tensor) (β' : Nat → ℝ) : Prop :=
  (∀ k < K, ∑ i ∈ Finset.range n, w' i k 0 = ∑ i ∈ Finset.range n, w i k 0) ∧ ∑ i ∈ Finset.range n, β' i = ∑ i ∈ Finset.range n, β i

/-- The network with `c k` added to all weights of the input `k` of its last layer, and `d` to all biases. -/
noncomputable def shiftNet (c : Nat → ℝ) (d : ℝ) (ls : List NetLayer) : List NetLayer :=
  match ls.getLast? with
  | some (.full n w β) => ls.dropLast ++ [.full n (fun i k l => w i k l + c k) (fun i => β i + d)]
  | _ => ls

end Cnn

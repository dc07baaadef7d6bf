import Verif.Spec.Slots
import Verif.Spec.Shows
import Verif.Model.Network
/-! Specification for C106 in any arithmetic: two units of a fully connected layer that cannot be told apart. -/
namespace Cnn
variable {α : Type}

/-- Units `i` and `j` of the fully connected layer `l`, with `m` units and `K` inputs, have the same weights and biases, and the
fully connected layer `l + 2`, with `n` units, uses them with the same weights. -/
def Model.TwinUnits (M : Model α) (l m K n i j : Nat) : Prop :=
  ∃ W Bi V Bj w β v, M.params l = some (W, Bi) ∧ M.params (l + 2) = some (V, Bj) ∧ W.Shows m K 1 w ∧ Bi.Shows m 1 1 β ∧ V.Shows n m 1 v ∧
    (∀ k < K, w i k 0 = w j k 0) ∧ β i 0 0 = β j 0 0 ∧ ∀ a < n, v a i 0 = v a j 0

end Cnn

import Verif.Model.Layers
import Mathlib.Analysis.SpecialFunctions.Sigmoid
import Mathlib.Analysis.SpecialFunctions.Log.Base
import Mathlib.Analysis.SpecialFunctions.Log.Deriv
import Mathlib.Analysis.SpecialFunctions.Trigonometric.DerivHyp
import Mathlib.Analysis.SpecialFunctions.Pow.Real
/-!
# Exact (real) arithmetic

The instance of `Num` in which the mathematical theorems are stated, the activation functions as mathematicians write
them, and softmax.
-/
namespace Cnn
open Real

/-- The decimal constants are the exact values of the C++ literals: `0.1f` = 13421773/2^27,
`0.1` = 3602879701896397/2^55, `1e-5f` = 10995116/2^40. -/
noncomputable def Num.real : Num ℝ where
  exp := Real.exp
  tanh := Real.tanh
  sqrt := Real.sqrt
  log2 := Real.logb 2
  ofNat n := (n : ℝ)
  lt a b := decide (a < b)
  slopeF := 13421773 / 2 ^ 27
  slopeD := 3602879701896397 / 2 ^ 55
  eps := 10995116 / 2 ^ 40

/-- The activation functions as documented; the slope of LEAKY_RELU is the value of the literal `0.1f`. -/
noncomputable def actSpec : ActFn → ℝ → ℝ
  | .relu, x => max x 0
  | .sigmoid, x => Real.sigmoid x
  | .linear, x => x
  | .tangent, x => Real.tanh x
  | .leaky, x => if 0 ≤ x then x else 13421773 / 2 ^ 27 * x

/-- `softmax(v)_i = exp(v_i) / ∑_j exp(v_j)` for a vector of length `n`. -/
noncomputable def softmax (n : Nat) (v : Nat → ℝ) (i : Nat) : ℝ :=
  Real.exp (v i) / ∑ j ∈ Finset.range n, Real.exp (v j)

end Cnn

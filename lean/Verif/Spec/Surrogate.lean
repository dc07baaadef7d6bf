import Verif.Spec.Net
/-!
# What back-propagation differentiates (C83)

Back-propagation multiplies the gradient by a slope at every activation and sends it to one entry of every window of a MAX or
MIN layer. So it differentiates the network in which every activation is replaced by a straight line through the value taken,
and every maximum or minimum by the entry chosen. The slope is the one the program uses: for SIGMOID and TANGENT it is the
derivative at the *output* of the layer (C24), for LEAKY_RELU and RELU it depends on the sign of the output.
-/
namespace Cnn

/-- The slope the program uses for an activation whose output is `y`; for LEAKY_RELU below 0 it is the `double` next to 0.1. -/
noncomputable def actSlope : ActFn → ℝ → ℝ
  | .relu, y => if 0 < y then 1 else 0
  | .sigmoid, y => Real.sigmoid y * (1 - Real.sigmoid y)
  | .linear, _ => 1
  | .tangent, y => 1 - Real.tanh y * Real.tanh y
  | .leaky, y => if 0 < y then 1 else 3602879701896397 / 2 ^ 55

namespace NetLayer

/-- The position, counted with the first index running fastest, of the first entry of a window which is best. -/
noncomputable def chosen (le : ℝ → ℝ → Prop) (px py sx sy : Nat) (x : Tensor) (i j k : Nat) : Nat :=
  sInf {m | m < px * py ∧ ∀ a < px, ∀ c < py, le (x (i * sx + a) (j * sy + c) k) (x (i * sx + m % px) (j * sy + m / px) k)}

/-- The layer that selects those entries. -/
noncomputable def selects (s : Shape) (le : ℝ → ℝ → Prop) (px py sx sy : Nat) (x : Tensor) : NetLayer :=
  gate (windows s.X px sx) (windows s.Y py sy) (fun i j k => i * sx + chosen le px py sx sy x i j k % px)
    (fun i j k => j * sy + chosen le px py sx sy x i j k / px) (fun _ _ _ => 1) (fun _ _ _ => 0)

/-- The layer in whose place back-propagation, at the input `x`, differentiates. -/
noncomputable def surrogate (s : Shape) (x : Tensor) : NetLayer → NetLayer
  | act f => gate s.X s.Y (fun i _ _ => i) (fun _ j _ => j) (fun i j k => actSlope f (actSpec f (x i j k)))
      (fun i j k => actSpec f (x i j k) - actSlope f (actSpec f (x i j k)) * x i j k)
  | pool .max px py sx sy => selects s (· ≤ ·) px py sx sy x
  | pool .min px py sx sy => selects s (· ≥ ·) px py sx sy x
  | l => l

end NetLayer

/-- The network in whose place back-propagation, at the input `x`, differentiates. -/
noncomputable def netSurrogate : List NetLayer → Shape → Tensor → List NetLayer
  | [], _, _ => []
  | l :: ls, s, x => l.surrogate s x :: netSurrogate ls (l.out s) (l.eval s x)

end Cnn

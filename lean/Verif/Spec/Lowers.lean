import Verif.Spec.Descent
/-!
# Where gradient descent cannot go on (C91)
-/
namespace Cnn

/-- All partial derivatives of `f` with respect to weights and biases are 0 at `ls`. -/
def Stationary (s : Shape) (f : List NetLayer → ℝ) (ls : List NetLayer) : Prop :=
  ∀ i l w β, ls[i]? = some l → l.params = some (w, β) →
    (∀ a < (l.weightShape (netOut (ls.take i) s)).X, ∀ b < (l.weightShape (netOut (ls.take i) s)).Y,
      ∀ c < (l.weightShape (netOut (ls.take i) s)).Z,
      deriv (fun v => f (ls.set i (l.withParams (w.update a b c v) β))) (w a b c) = 0) ∧
    ∀ k < l.biasCount, deriv (fun v => f (ls.set i (l.withParams w (Function.update β k v)))) (β k) = 0

/-- The layer is differentiable at the input `x`, whatever its activation function. -/
def NetLayer.Differentiable (s : Shape) (x : Tensor) : NetLayer → Prop
  | .act f => ∀ i < s.X, ∀ j < s.Y, ∀ k < s.Z, DifferentiableAt ℝ (actSpec f) (x i j k)
  | l => l.Smooth s x

/-- All layers are differentiable at the inputs they receive. -/
def NetDifferentiable : List NetLayer → Shape → Tensor → Prop
  | [], _, _ => True
  | l :: ls, s, x => l.Differentiable s x ∧ NetDifferentiable ls (l.out s) (l.eval s x)

end Cnn

import Verif.Spec.Descent
/-!
# A model before its first use

The constructors leave the fully connected layers without weights; a layer gets them from the random number generator when
it meets its first input. `Starts` says which network a model will compute from its first input on.
-/
namespace Cnn

/-- `n` random numbers, divided by their Euclidean norm. -/
noncomputable def unitDraws (n : Nat) (draws : Nat → ℝ) (k : Nat) : ℝ := draws k / √(∑ r ∈ Finset.range n, draws r * draws r)

/-- The layer object computes the layer on inputs of shape `s`, or it is a fully connected layer not yet used which will: the
weights are the first random numbers drawn, column by column, the biases are the next, both normalised. The batch slots do
not matter. -/
def Body.Starts (draws : Nat → ℝ) (first : Bool) (s : Shape) : Body ℝ → NetLayer → Prop
  | .kernel K, .conv A B C F w β => K.Is A B C F 1 w β
  | .pooling P, .pool t px py sx sy => P.type = t ∧ P.dim = ⟨px, py⟩ ∧ P.stride = ⟨sx, sy⟩
  | .connected L, .full n w β =>
      (L.Is n (s.X * s.Y * s.Z) (fun i k => w i k 0) β ∧ (first = true ∨ L.inputDim = dimN s.X s.Y s.Z)) ∨
      (L.initialized = false ∧ (∃ f, L.biases.Shows n 1 1 f) ∧ 0 < s.X * s.Y * s.Z ∧ n * (s.X * s.Y * s.Z) < 2147483648 ∧
        (∀ i < n, ∀ k < s.X * s.Y * s.Z, w i k 0 = unitDraws (n * (s.X * s.Y * s.Z)) draws (i + n * k)) ∧
        ∀ i < n, β i = unitDraws n (fun r => draws (n * (s.X * s.Y * s.Z) + r)) i)
  | .activation A, .act f => A = Activation.new f
  | _, _ => False

/-- The model consists of the layers of a network, used or not yet used, and a softmax layer over its `n` labels. -/
structure Model.Starts (draws : Nat → Nat → ℝ) (M : Model ℝ) (s : Shape) (ls : List NetLayer) (n : Nat) : Prop where
  count : M.layers.length = ls.length + 1
  layers : ∀ (i : Nat) (L : Layer ℝ) (l : NetLayer), M.layers[i]? = some L → ls[i]? = some l →
    L.body.Starts (draws i) (decide (i = 0)) (netOut (ls.take i) s) l
  last : ∃ (L : Layer ℝ) (S : Softmax), M.layers[ls.length]? = some L ∧ L.body = .softmax S ∧ S.count = n
  labels : M.labels.length = n
  output : netOut ls s = ⟨n, 1, 1⟩ ∨ netOut ls s = ⟨1, n, 1⟩

end Cnn

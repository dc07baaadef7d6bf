import Verif.Spec.Build
/-!
# Networks whose layers fit together (C70, C71)

Only sizes matter here: `Works` says for which inputs a layer can be built, used and trained. Nothing is said about numbers.
-/
namespace Cnn

/-- An ordinary matrix of the given shape, whatever its entries. -/
def Matrix.Has {α : Type} (M : Matrix α) (s : Shape) : Prop := ∃ f, M.Shows s.X s.Y s.Z f

namespace LayerKind

/-- The shape of the output for inputs of shape `s`. -/
def out (s : Shape) : LayerKind → Shape
  | conv A B _ F => ⟨s.X - A + 1, s.Y - B + 1, F⟩
  | pool _ px py sx sy => ⟨windows s.X px sx, windows s.Y py sy, s.Z⟩
  | full n => ⟨n, 1, 1⟩
  | act _ => s

/-- The layer accepts inputs of shape `s`, and gradients can be propagated back through it: a convolution that is not the first
layer must have a square output (C36), and the sizes must be `int`s. -/
def Works (first : Bool) (s : Shape) : LayerKind → Prop
  | conv A B C F => (0 < A ∧ 0 < B ∧ 0 < C ∧ 0 < F ∧ A * B * (C * F) < 2147483648) ∧ s.Z = C ∧ ConvFits s.X s.Y A B F ∧
      (first = true ∨ (s.X - A = s.Y - B ∧ (A + 2 * (s.X - A)) * (B + 2 * (s.Y - B)) < 2147483648))
  | pool _ px py sx sy => PoolFits s.X s.Y px py sx sy
  | full n => 0 < n ∧ n * (s.X * s.Y * s.Z) < 2147483648
  | act _ => True

end LayerKind

/-- The shape of the output of a sequence of layers. -/
def kindsOut : List LayerKind → Shape → Shape
  | [], s => s
  | k :: ks, s => kindsOut ks (k.out s)

/-- Each layer works on what the one before gives. -/
def KindsWork : Bool → Shape → List LayerKind → Prop
  | _, _, [] => True
  | first, s, k :: ks => k.Works first s ∧ KindsWork false (k.out s) ks

/-- A layer object of the given kind which accepts inputs of shape `s`. A fully connected layer has met an input of this shape
before (the first layer: of this size), or has not been used yet. -/
def Body.Runs {α : Type} (first : Bool) (s : Shape) : Body α → LayerKind → Prop
  | .kernel K, .conv A B C F => ∃ w β, K.Is A B C F 1 w β
  | .pooling P, .pool t px py sx sy => P.type = t ∧ P.dim = ⟨px, py⟩ ∧ P.stride = ⟨sx, sy⟩
  | .connected L, .full n => (∃ w β, L.Is n (s.X * s.Y * s.Z) w β ∧ (first = true ∨ L.inputDim = dimN s.X s.Y s.Z)) ∨
      (L.initialized = false ∧ L.biases.Has ⟨n, 1, 1⟩)
  | .activation _, .act _ => True
  | _, _ => False

/-- A model consisting of layer objects of the given kinds for inputs of shape `s`, and a softmax layer over the labels. -/
structure Model.Runs {α : Type} (M : Model α) (s : Shape) (ks : List LayerKind) : Prop where
  count : M.layers.length = ks.length + 1
  layers : ∀ (i : Nat) (L : Layer α) (k : LayerKind), M.layers[i]? = some L → ks[i]? = some k →
    L.body.Runs (decide (i = 0)) (kindsOut (ks.take i) s) k
  last : ∃ (L : Layer α) (S : Softmax), M.layers[ks.length]? = some L ∧ L.body = .softmax S ∧ S.count = M.labels.length
  output : kindsOut ks s = ⟨M.labels.length, 1, 1⟩ ∨ kindsOut ks s = ⟨1, M.labels.length, 1⟩

/-- A sample of the right shape with a known label. -/
def Sample.Fits {α : Type} (x : Sample α) (s : Shape) (labels : List (List Char)) : Prop := x.data.Has s ∧ x.label ∈ labels

end Cnn

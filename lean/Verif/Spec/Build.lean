import Verif.Spec.Fresh
import Verif.Model.Serialize
/-!
# Building a model with the `add…` functions
-/
namespace Cnn

/-- A call of one of the functions that add a layer. -/
inductive LayerKind
  | conv (A B C F : Nat)
  | pool (t : PoolType) (px py sx sy : Nat)
  | full (n : Nat)
  | act (f : ActFn)

namespace LayerKind

/-- The call. `draws` are the random numbers a convolution layer gets. -/
def add {α : Type} [Zero α] [Add α] [Sub α] [Mul α] [Div α] (N : Num α) (draws : Nat → α) (M : Model α) : LayerKind → Res (Model α)
  | conv A B C F => M.addKernel N draws ⟨A, B, C⟩ F
  | pool t px py sx sy => .ok (M.addPooling ⟨px, py⟩ ⟨sx, sy⟩ t)
  | full n => M.addConnected n
  | act f => .ok (M.addActivation f)

/-- The layer with normalised random numbers as weights and biases, for inputs of shape `s`. The weights of a convolution
are drawn with the first index running fastest. -/
noncomputable def drawn (draws : Nat → ℝ) (s : Shape) : LayerKind → NetLayer
  | conv A B C F => .conv A B C F (fun i j k => unitDraws (A * B * (C * F)) draws (i + A * (j + B * k)))
      (fun f => unitDraws F (fun r => draws (A * B * (C * F) + r)) f)
  | pool t px py sx sy => .pool t px py sx sy
  | full n => .full n (fun i k _ => unitDraws (n * (s.X * s.Y * s.Z)) draws (i + n * k))
      (fun i => unitDraws n (fun r => draws (n * (s.X * s.Y * s.Z) + r)) i)
  | act f => .act f

/-- The weights can be allocated: no dimension is 0 and their number is an `int`. -/
def Sized (s : Shape) : LayerKind → Prop
  | conv A B C F => 0 < A ∧ 0 < B ∧ 0 < C ∧ 0 < F ∧ A * B * (C * F) < 2147483648
  | full n => 0 < n ∧ 0 < s.X * s.Y * s.Z ∧ n * (s.X * s.Y * s.Z) < 2147483648
  | _ => True

end LayerKind

/-- The calls one after the other; layer `i` uses the random numbers `draws i`. -/
def addLayers {α : Type} [Zero α] [Add α] [Sub α] [Mul α] [Div α] (N : Num α) (draws : Nat → Nat → α) :
    Nat → List LayerKind → Model α → Res (Model α)
  | _, [], M => .ok M
  | i, k :: ks, M => do
    let M ← k.add N (draws i) M
    addLayers N draws (i + 1) ks M

/-- A model built as in main.cpp:155-166: layers are added to a new model, then the labels are set. -/
def buildModel {α : Type} [Zero α] [Add α] [Sub α] [Mul α] [Div α] (N : Num α) (draws : Nat → Nat → α) (ks : List LayerKind)
    (labels : List (List Char)) : Res (Model α) := do
  let M ← addLayers N draws 0 ks Model.new
  .ok (M.setOutputLabels labels true)

/-- The network with random weights, for inputs of shape `s`. -/
noncomputable def drawnNet (draws : Nat → Nat → ℝ) : Nat → Shape → List LayerKind → List NetLayer
  | _, _, [] => []
  | i, s, k :: ks => k.drawn (draws i) s :: drawnNet draws (i + 1) ((k.drawn (draws i) s).out s) ks

/-- All weights can be allocated. -/
def AllSized (draws : Nat → Nat → ℝ) : Nat → Shape → List LayerKind → Prop
  | _, _, [] => True
  | i, s, k :: ks => k.Sized s ∧ AllSized draws (i + 1) ((k.drawn (draws i) s).out s) ks

end Cnn

import Verif.Model.Main
import Verif.Spec.Validate
import Verif.Spec.Text
/-!
# Specification vocabulary for the program (C71, C75)
-/
namespace Cnn.Main
open Mnist

/-- The layers of main.cpp:158-164. -/
def kinds : List LayerKind := [.conv 5 5 1 2, .act .sigmoid, .pool .max 2 2 2 2, .conv 3 3 2 4, .act .relu, .pool .max 2 2 2 2, .full 10]

/-- Images of the MNIST size. -/
def image : Shape := ⟨28, 28, 1⟩

/-- The number of threads. -/
def threads (cores : Nat) : Nat := Max.max cores 1

/-- The contents `f` (training) and `g` (test) of the files suit the program: they are well formed, the images have 28×28 pixels, the labels of the
training set are digits, there are enough training images to fill a batch and few enough for `size()` to be a `float`. (The MNIST files have
60000 and 10000 images.) -/
structure Suits (lim cores : Nat) (f g : Content) : Prop where
  train : f.Ok lim
  test : g.Ok lim
  trainSize : f.h = 28 ∧ f.w = 28
  testSize : g.h = 28 ∧ g.w = 28
  digits : ∀ i < f.n, f.label i ≤ 9
  enough : 33 ≤ f.n
  few : f.n ≤ 2 ^ 24
  some : 0 < g.n
  threads : g.n + threads cores < 2147483648

/-- The files with these contents. -/
def files (f g : Content) : Files := ⟨some f.images, some f.labels, some g.images, some g.labels⟩

/-- None of the stored weights and biases is an infinity or NaN. -/
def FiniteWeights {α : Type} (C : Codec α) (M : Model α) : Prop := ∀ l ∈ M.layers, match l.body with
  | .kernel K => (∀ a ∈ K.weights.vals, C.Finite a) ∧ ∀ a ∈ K.biases.vals, C.Finite a
  | .connected L => (∀ a ∈ L.weights.vals, C.Finite a) ∧ ∀ a ∈ L.biases.vals, C.Finite a
  | _ => True

/-- Whether a layer is an activation layer. -/
def isActivation {α : Type} (l : Layer α) : Bool := match l.body with
  | .activation _ => true
  | _ => false

end Cnn.Main

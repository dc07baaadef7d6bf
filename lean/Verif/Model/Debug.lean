import Verif.Model.Console
/-!
# Printing for inspection (src/main.cpp:24-51)

`debugLayerWeights` is not called by the program.
-/
namespace Cnn

/-- ModelLayer.h:11: only convolution and fully connected layers have other weights than the default-constructed matrix. -/
def Body.weights {α : Type} : Body α → Matrix α
  | .kernel K => K.weights
  | .connected L => L.weights
  | _ => Matrix.empty

/-- ModelLayer.h:12. -/
def Body.biases {α : Type} : Body α → Matrix α
  | .kernel K => K.biases
  | .connected L => L.biases
  | _ => Matrix.empty

namespace Console
variable {α : Type}

/-- main.cpp:38-51 `operator<<`; reading the index of the true label before it has been set would be undefined. -/
def resultsOf (T : Texts α) (r : Results α) : Res (List Char) :=
  match r.trueLabel with
  | none => .ok (results T r.labelIdx r.confidence)
  | some label =>
    match r.trueIdx with
    | none => .ub
    | some i => .ok ("Layer Results:\n".toList ++ "\tLabel Index: ".toList ++ natText r.labelIdx ++ ['\n'] ++
        "\tConfidence:  ".toList ++ T.number r.confidence ++ ['\n'] ++ "\tLoss:        ".toList ++ T.number r.loss ++ ['\n'] ++
        "\tTrue value:  ".toList ++ label ++ ['\n'] ++ "\tTrue index:  ".toList ++ natText i ++ ['\n'] ++ ['\n'])

/-- main.cpp:28-31: one layer. -/
def debugLayer [Zero α] [Add α] [Mul α] (sqrt : α → α) (T : Texts α) (i : Nat) (l : Layer α) : Res (List Char) := do
  let w ← MExpr.l2Norm sqrt l.body.weights.expr
  let b ← MExpr.l2Norm sqrt l.body.biases.expr
  .ok ("Layer ".toList ++ natText i ++ " has weights of norm ".toList ++ T.number w ++ ['\n'] ++
    "Layer ".toList ++ natText i ++ " has biases of norm ".toList ++ T.number b ++ ['\n'])

/-- main.cpp:27-33: the loop over the layers. -/
def debugLayers [Zero α] [Add α] [Mul α] (sqrt : α → α) (T : Texts α) : Nat → List (Layer α) → Res (List Char)
  | _, [] => .ok []
  | i, l :: ls => do
    let s ← debugLayer sqrt T i l
    let r ← debugLayers sqrt T (i + 1) ls
    .ok (s ++ r)

/-- main.cpp:24-33 `debugLayerWeights`. -/
def debugLayerWeights [Zero α] [Add α] [Mul α] (sqrt : α → α) (T : Texts α) (M : Model α) : Res (List Char) := debugLayers sqrt T 0 M.layers

end Console
end Cnn

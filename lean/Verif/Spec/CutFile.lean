import Verif.Spec.Saved
/-!
# Specification vocabulary for saved files that end too early (C96)
-/
namespace Cnn
variable {α : Type}

/-- The first line of what a layer writes. -/
def Body.word : Body α → List Char
  | .kernel _ => "Kernel".toList
  | .pooling _ => "Pooling".toList
  | .connected _ => "Connected Layer".toList
  | .activation _ => "Activation".toList
  | .softmax _ => "Softmax".toList

/-- The last number a layer writes and all that follows it: the last bias, the second stride. -/
def Body.lastNumber (C : Codec α) : Body α → List Char
  | .kernel K => (K.biases.vals.getLast?.elim [] C.text) ++ " \n\n".toList
  | .pooling P => intText P.dim.y ++ ['\n']
  | .connected L => (L.biases.vals.getLast?.elim [] C.text) ++ " \n\n".toList
  | _ => []

end Cnn

import Verif.Model.Train
/-! Specification for C112: what training leaves as it is. -/
namespace Cnn
variable {α : Type}

/-- The same dimensions and the same number of entries. -/
def Matrix.SameSize (A A' : Matrix α) : Prop := A'.dim = A.dim ∧ A'.vals.length = A.vals.length

/-- The same layer but for the numbers in its weights and biases, its batch slots and the label told. A fully connected layer takes the size of its
weights from the first input; once it has it, it keeps it. -/
def Body.SameMake : Body α → Body α → Prop
  | .kernel K, .kernel K' => K'.dim = K.dim ∧ K'.numFilters = K.numFilters ∧ K'.stride = K.stride ∧ K.weights.SameSize K'.weights ∧ K.biases.SameSize K'.biases
  | .pooling P, .pooling P' => P'.dim = P.dim ∧ P'.stride = P.stride ∧ P'.type = P.type
  | .connected L, .connected L' => L.biases.SameSize L'.biases ∧
      (L.initialized = true → L'.initialized = true ∧ L'.inputDim = L.inputDim ∧ L.weights.SameSize L'.weights)
  | .activation A, .activation A' => A' = A
  | .softmax S, .softmax S' => S'.count = S.count ∧ (S.knows = true → S'.knows = true)
  | _, _ => False

/-- The same model but for what `Body.SameMake` leaves open: labels, number, order and names of the layers, and the counters used for naming. -/
def Model.SameMake (M M' : Model α) : Prop :=
  (M'.labels = M.labels ∧ M'.softmax = M.softmax ∧ M'.kernels = M.kernels ∧ M'.poolings = M.poolings ∧ M'.connecteds = M.connecteds ∧
    M'.activations = M.activations) ∧
  List.Forall₂ (fun l l' => l'.name = l.name ∧ l.body.SameMake l'.body) M.layers M'.layers

end Cnn

import Verif.Spec.Train
import Verif.Spec.Shows
/-!
# Specification vocabulary for the update after a batch (C53, C54)
-/
namespace Cnn
variable {α : Type}

/-- The weights and biases of a layer that has them. -/
def Body.params : Body α → Option (Matrix α × Matrix α)
  | .kernel K => some (K.weights, K.biases)
  | .connected L => some (L.weights, L.biases)
  | _ => none

/-- The gradients a layer stores in batch slot `b`, for its weights and its biases. -/
def Body.stored (b : Nat) : Body α → Option (Matrix α × Matrix α)
  | .kernel K => K.wGrads[b]?.bind fun g => K.bGrads[b]?.map fun h => (g, h)
  | .connected L => L.wGrads[b]?.bind fun g => L.bGrads[b]?.map fun h => (g, h)
  | _ => none

/-- Everything about a layer but the contents of the batch slots and the label told. -/
def Body.bare : Body α → Body α
  | .kernel K => .kernel { K with wGrads := emptyGrads K.wGrads.length, bGrads := emptyGrads K.bGrads.length }
  | .pooling P => .pooling { P with indices := List.replicate P.indices.length Matrix.empty }
  | .connected L => .connected { L with wGrads := emptyGrads L.wGrads.length, bGrads := emptyGrads L.bGrads.length }
  | .softmax S => .softmax { S with trueLabel := 0, knows := true }
  | B => B

/-- Everything about a model but the contents of the batch slots and the label told. -/
def Model.bare (M : Model α) : Model α := { M with layers := M.layers.map fun l => { l with body := l.body.bare } }

/-- The weights and biases of layer `i`. -/
def Model.params (M : Model α) (i : Nat) : Option (Matrix α × Matrix α) := M.layers[i]?.bind fun l => l.body.params

/-- The gradients layer `i` stores in slot `b`. -/
def Model.stored (M : Model α) (i b : Nat) : Option (Matrix α × Matrix α) := M.layers[i]?.bind fun l => l.body.stored b

/-- A matrix of weights and a vector of biases of sound sizes. -/
def Sound (W B : Matrix α) : Prop := (∃ X Y Z f, W.Shows X Y Z f) ∧ ∃ F f, B.Shows F 1 1 f

/-- A layer prepared for batches of `n`: `setBatchSize(n)` has been called, parameters and strides are sound, a fully
connected layer has been used before. -/
def Body.Prepared (n : Nat) : Body α → Prop
  | .kernel K => K.wGrads.length = n ∧ K.bGrads.length = n ∧ Sound K.weights K.biases
  | .pooling P => P.indices.length = n ∧ 0 < P.stride.x ∧ 0 < P.stride.y
  | .connected L => L.initialized = true ∧ L.wGrads.length = n ∧ L.bGrads.length = n ∧ Sound L.weights L.biases
  | _ => True

/-- Only the last layer may be a softmax layer. -/
def Model.SoftmaxLast (M : Model α) : Prop :=
  ∀ (i : Nat) (l : Layer α) (S : Softmax), M.layers[i]? = some l → l.body = .softmax S → i + 1 = M.layers.length

/-- All layers are prepared for batches of `n`. -/
def Model.Prepared (n : Nat) (M : Model α) : Prop := ∀ l ∈ M.layers, l.body.Prepared n

section
variable [Zero α] [One α] [Add α] [Sub α] [Mul α] [Div α] [Neg α]

/-- The model after a sample has been propagated in both directions on its own, in a batch of one. -/
def alone (E : Env α) (M : Model α) (x : Sample α) : Res (Model α) := do
  let f ← (M.setBatchSize 1).forwardPropagation E x.data 0
  let b ← f.2.backwardsPropagation E f.1 x.label 0
  .ok b.2

/-- The gradients of layer `i` that a sample gives on its own. -/
def ownGrads (E : Env α) (M : Model α) (x : Sample α) (i : Nat) : Option (Matrix α × Matrix α) :=
  match alone E M x with
  | .ok m => m.stored i 0
  | _ => none

/-- Every back-propagation of the output layer used the label of its sample. -/
def OwnLabels (M : Model α) (evs : List (Train.Event α)) : Prop :=
  ∀ t slot x used, (t, slot, x, used) ∈ Train.grads evs → used = M.labelIndex x.label

end
end Cnn

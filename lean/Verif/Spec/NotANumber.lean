import Verif.Spec.Safe
import Verif.Spec.Slots
import Verif.Model.Network
/-!
# Specification vocabulary for NaNs in training (C97)

Nothing is said here about binary64: `Absorbs` lists what is used of the numbers called NaN.
-/
namespace Cnn
variable {α : Type}

/-- The numbers `nan` are never lost: an operation on one of them gives one of them again, and comparisons with them are false. -/
structure Absorbs [Add α] [Sub α] [Mul α] [Div α] (E : Env α) (nan : α → Prop) : Prop where
  add_left : ∀ a b, nan a → nan (a + b)
  add_right : ∀ a b, nan b → nan (a + b)
  sub_left : ∀ a b, nan a → nan (a - b)
  sub_right : ∀ a b, nan b → nan (a - b)
  mul_left : ∀ a b, nan a → nan (a * b)
  mul_right : ∀ a b, nan b → nan (a * b)
  div_left : ∀ a b, nan a → nan (a / b)
  div_right : ∀ a b, nan b → nan (a / b)
  exp : ∀ a, nan a → nan (E.num.exp a)
  toFloat : ∀ a, nan a → nan (E.toFloat a)
  lt_left : ∀ a b, nan a → E.num.lt a b = false
  lt_right : ∀ a b, nan b → E.num.lt a b = false

/-- A matrix of shape `s` all of whose entries are NaN. -/
def Matrix.Lost (nan : α → Prop) (s : Shape) (M : Matrix α) : Prop :=
  ∃ f, M.Shows s.X s.Y s.Z f ∧ ∀ i < s.X, ∀ j < s.Y, ∀ k < s.Z, nan (f i j k)

/-- A matrix of shape `s` with a NaN. -/
def Matrix.Hurt (nan : α → Prop) (s : Shape) (M : Matrix α) : Prop :=
  ∃ f, M.Shows s.X s.Y s.Z f ∧ ∃ i < s.X, ∃ j < s.Y, ∃ k < s.Z, nan (f i j k)

/-- Neuron `r` of a fully connected layer with `n` neurons and `m` inputs has only NaNs as weights and as bias. -/
def NeuronLost (nan : α → Prop) (n m r : Nat) (W B : Matrix α) : Prop :=
  (∃ w, W.Shows n m 1 w ∧ ∀ j < m, nan (w r j 0)) ∧ ∃ β, B.Shows n 1 1 β ∧ nan (β r 0 0)

/-- No pooling layer comes before the next layer with parameters. -/
def unpooled : List LayerKind → Bool
  | [] => true
  | .act _ :: ks => unpooled ks
  | .pool .. :: _ => false
  | _ => true

/-- What a NaN answer does to the weights `W` and biases `B` of a layer for inputs of shape `s` which is followed by the layers `rest`:
those of a convolution are lost, those of a fully connected layer for at least one neuron, and for all unless a pooling layer
comes between it and the next layer with parameters. -/
def Ruined (nan : α → Prop) (s : Shape) (rest : List LayerKind) (W B : Matrix α) : LayerKind → Prop
  | .conv p q C F => W.Lost nan ⟨p, q, C * F⟩ ∧ B.Lost nan ⟨F, 1, 1⟩
  | .full n => (∃ r < n, NeuronLost nan n (s.X * s.Y * s.Z) r W B) ∧
      (unpooled rest = true → W.Lost nan ⟨n, s.X * s.Y * s.Z, 1⟩ ∧ B.Lost nan ⟨n, 1, 1⟩)
  | _ => True

/-- The layer kinds with parameters. -/
def LayerKind.learns : LayerKind → Bool
  | .conv .. => true
  | .full _ => true
  | _ => false

/-- Two matrices of the same shape; where the first one has a NaN, so has the second. -/
def Matrix.StillNaN (nan : α → Prop) (W W' : Matrix α) : Prop :=
  ∃ X Y Z w w', W.Shows X Y Z w ∧ W'.Shows X Y Z w' ∧ ∀ i < X, ∀ j < Y, ∀ k < Z, nan (w i j k) → nan (w' i j k)

section
variable [Zero α] [One α] [Add α] [Sub α] [Mul α] [Div α] [Neg α]

/-- Asked about `X` in slot `b`, the model answers with probabilities that are all NaN. -/
def Model.AnswersNaN (nan : α → Prop) (E : Env α) (M : Model α) (X : Matrix α) (b : Nat) : Prop :=
  ∃ r M' P v, M.forwardPropagation E X b = .ok (r, M') ∧ r.inputs.getLast? = some P ∧ P.IsVec M.labels.length v ∧ ∀ t < M.labels.length, nan (v t)

/-- … it names the first label, with confidence NaN. -/
def Model.Useless (nan : α → Prop) (E : Env α) (M : Model α) (X : Matrix α) (b : Nat) : Prop :=
  ∃ r M' P v, M.forwardPropagation E X b = .ok (r, M') ∧ r.labelIdx = 0 ∧ nan r.confidence ∧
    r.inputs.getLast? = some P ∧ P.IsVec M.labels.length v ∧ ∀ t < M.labels.length, nan (v t)

end
end Cnn

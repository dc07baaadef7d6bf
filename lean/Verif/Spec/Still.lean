import Verif.Spec.Slots
/-! Specification for C111: a learning rate of 0. -/
namespace Cnn
variable {α : Type}

/-- What is used of the learning rate `rate` and of the set `nan`: products with `rate` are 0 or NaN, subtracting 0 changes nothing, NaNs
are not lost by subtraction. -/
structure StillRate [Zero α] [Sub α] [Mul α] (nan : α → Prop) (rate : α) : Prop where
  mul : ∀ a : α, rate * a = 0 ∨ nan (rate * a)
  sub : ∀ a : α, a - 0 = a
  left : ∀ a b : α, nan a → nan (a - b)
  right : ∀ a b : α, nan b → nan (a - b)

/-- A matrix with the same shape, and with the same entries but for NaNs. -/
def Matrix.KeptIn (nan : α → Prop) (W W' : Matrix α) : Prop :=
  ∃ X Y Z w w', W.Shows X Y Z w ∧ W'.Shows X Y Z w' ∧ ∀ i < X, ∀ j < Y, ∀ k < Z, w' i j k = w i j k ∨ nan (w' i j k)

/-- All weights and biases of all layers are the same but for NaNs. -/
def Model.KeptIn (nan : α → Prop) (M M' : Model α) : Prop :=
  ∀ i W Bi, M.params i = some (W, Bi) → ∃ W' Bi', M'.params i = some (W', Bi') ∧ W.KeptIn nan W' ∧ Bi.KeptIn nan Bi'

end Cnn

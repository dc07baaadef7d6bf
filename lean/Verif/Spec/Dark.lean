import Verif.Spec.NotANumber
import Verif.Spec.Shows
/-! Specification for C108: pixels that are 0 in all training images, in any arithmetic. -/
namespace Cnn
variable {α : Type}

/-- What is used of the number 0 besides `Absorbs`: all of it holds for IEEE 754 numbers if the learning rate `rate` is finite. -/
structure ZeroKept [Zero α] [Add α] [Sub α] [Mul α] [Div α] (E : Env α) (nan : α → Prop) (rate : α) (B : Nat) : Prop where
  mul : ∀ a : α, a * 0 = 0 ∨ nan (a * 0)
  add : (0 : α) + 0 = 0
  div : (0 : α) / E.num.ofNat B = 0
  rate : rate * 0 = 0
  sub : ∀ a : α, a - 0 = a
  toFloat : E.toFloat 0 = 0

/-- The pixel `(a, c, e)` of the image is 0. -/
def Sample.Dark [Zero α] (x : Sample α) (s : Shape) (a c e : Nat) : Prop := ∃ g, x.data.Shows s.X s.Y s.Z g ∧ g a c e = 0

/-- Column `k` of the weights of the first layer, with `n` units and `K` inputs, is the same in both models but for NaNs. -/
def KeptColumn (nan : α → Prop) (n K k : Nat) (M M' : Model α) : Prop :=
  ∃ W Bi W' Bi' w w', M.params 0 = some (W, Bi) ∧ M'.params 0 = some (W', Bi') ∧ W.Shows n K 1 w ∧ W'.Shows n K 1 w' ∧
    ∀ i < n, w' i k 0 = w i k 0 ∨ nan (w' i k 0)

end Cnn

import Verif.Spec.Connected
import Verif.Spec.Dark
import Verif.Spec.Slots
/-! Specification for C105 in any arithmetic: a RELU unit that is off for all training images. -/
namespace Cnn
variable {α : Type}

/-- What is used of the number 0 besides `Absorbs` and `ZeroKept`. -/
structure ZeroOff [Zero α] [Add α] [Sub α] [Mul α] [Div α] (E : Env α) (nan : α → Prop) : Prop where
  mul : ∀ a : α, 0 * a = 0 ∨ nan (0 * a)
  lt : E.num.lt 0 0 = false

/-- Layer `l` is RELU. -/
def Model.ReluAt (M : Model α) (l : Nat) : Prop := ∃ L A, M.layers[l]? = some L ∧ L.body = .activation A ∧ A.fn = .relu ∧ A.gradFn = .relu

/-- The output of unit `i` of the first layer, fully connected with `m` units, is not above 0 for the image. -/
def Model.OffFor [Zero α] [Add α] [Mul α] (E : Env α) (M : Model α) (s : Shape) (m i : Nat) (x : Sample α) : Prop :=
  ∃ W Bi w β g, M.params 0 = some (W, Bi) ∧ W.Shows m (s.X * s.Y * s.Z) 1 w ∧ Bi.Shows m 1 1 β ∧ x.data.Shows s.X s.Y s.Z g ∧
    E.num.lt 0 (affine (fun a k => w a k 0) (fun a => β a 0 0) (s.X * s.Y * s.Z) (flatOf s.X s.Y g) i) = false

/-- The weights and the bias of unit `i` of the first layer, with `m` units and `K` inputs, are the same in both models but for NaNs. -/
def KeptUnit (nan : α → Prop) (m K i : Nat) (M M' : Model α) : Prop :=
  ∃ W Bi W' Bi' w β w' β', M.params 0 = some (W, Bi) ∧ M'.params 0 = some (W', Bi') ∧ W.Shows m K 1 w ∧ W'.Shows m K 1 w' ∧ Bi.Shows m 1 1 β ∧
    Bi'.Shows m 1 1 β' ∧ (∀ k < K, w' i k 0 = w i k 0 ∨ nan (w' i k 0)) ∧ (β' i 0 0 = β i 0 0 ∨ nan (β' i 0 0))

end Cnn

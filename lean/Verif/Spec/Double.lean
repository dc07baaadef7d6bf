import Verif.Model.Double
import Verif.Spec.Rounding
/-!
# Specification vocabulary for binary64 (C84, C85)
-/
namespace Cnn.Double

/-- Finite numbers. -/
def Fin (a : Double) : Prop := ∃ x, a = num x ∧ Format.double.Has x

/-- The value of a number. -/
noncomputable def val : Double → ℝ
  | num x => x
  | _ => 0

/-- The constants of binary64. -/
noncomputable def precision : Precision := ⟨2 ^ (-53 : ℤ), 2 ^ (-53 : ℤ), 2 ^ (-1075 : ℤ), 2 ^ (1023 : ℤ)⟩

end Cnn.Double

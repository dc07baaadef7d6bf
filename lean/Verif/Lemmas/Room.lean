import Verif.Model.Network
/-!
# Making room for a batch
-/
namespace Cnn.Model
variable {α : Type} {M : Model α} {b : Int}

theorem room_nonneg (h : 0 ≤ b) : M.room b = .ok () := if_neg fun h' => by omega

theorem room_cases (M : Model α) (b : Int) : M.room b = .ok () ∨ b < 0 ∧ M.room b = .throw .length := by
  unfold room
  split
  · next h => exact .inr ⟨h.1, rfl⟩
  · exact .inl rfl

end Cnn.Model

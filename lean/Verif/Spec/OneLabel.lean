import Verif.Model.Train
/-! Specification: samples sorted by label. -/
namespace Cnn

/-- All samples that share a batch of `B` have the same label. -/
def OneLabel {α : Type} (B : Nat) (src : List (Sample α)) : Prop :=
  ∀ j, ∀ x ∈ (src.drop (B * j)).take B, ∀ y ∈ (src.drop (B * j)).take B, x.label = y.label

end Cnn

import Verif.Props.SavedModels
/-!
# C66: the trained model that comes with the project, in general
-/
namespace Cnn
open IStream

section
variable {α : Type} [Zero α] [Add α] [Mul α] [Div α]

/-- The first lines of /repo/data/trained_model.model_data. -/
def shippedStart : List Char := "(0) ----------\nKernel\nRELU\nx 5\ny 5\nz 1\nn 2\nweights\n5 5 2\n".toList

/-- C66 A file whose first layer is a convolution layer with the name of an activation function in the line after `Kernel` (the format of the file that
comes with the project) is rejected, whatever the first line and the rest are, and whatever layers the model has already. The model is not left as it was: it has
one layer more. -/
theorem C66_kernel (C : Codec α) (N : Num α) (draws : Nat → Nat → α) (M : Model α) (head rest : List Char) (hh : ∀ c ∈ head, c ≠ '\n') (f : ActFn) :
    ∃ M', Model.loadModel N draws C M (some (head ++ "\nKernel\n".toList ++ f.name.toList ++ '\n' :: rest)) = some (.ok false, M') ∧
      M'.layers.length = M.layers.length + 1 ∧ M'.labels = M.labels := by
  obtain ⟨s', e, h1, h2⟩ := Model.load_kernel_bad N draws C M (f.name.toList ++ '\n' :: rest) (by
    cases f <;> rfl)
  refine ⟨s'.1, ?_, h1, h2⟩
  refine Model.loadModel_of_loop N draws C _ _ 1 _ ?_
  have := Model.loop_runtime N draws C M 0 (head := head) (label := "Kernel".toList) (r := f.name.toList ++ '\n' :: rest) hh (by decide) e
  rw [← this]
  congr 3
  simp

/-- C66 The same for a fully connected layer. -/
theorem C66_connected (C : Codec α) (N : Num α) (draws : Nat → Nat → α) (M : Model α) (head rest : List Char) (hh : ∀ c ∈ head, c ≠ '\n') (f : ActFn) :
    ∃ M', Model.loadModel N draws C M (some (head ++ "\nConnected Layer\n".toList ++ f.name.toList ++ '\n' :: rest)) = some (.ok false, M') := by
  obtain ⟨s', e⟩ := Model.load_connected_bad N draws C M (f.name.toList ++ '\n' :: rest) (by
    cases f <;> rfl)
  refine ⟨s'.1, ?_⟩
  refine Model.loadModel_of_loop N draws C _ _ 1 _ ?_
  have := Model.loop_runtime N draws C M 0 (head := head) (label := "Connected Layer".toList) (r := f.name.toList ++ '\n' :: rest) hh (by decide) e
  rw [← this]
  congr 3
  simp

/-- C66 is violated: the trained model that comes with the project cannot be loaded. `loadModel` returns `false` and leaves a single convolution layer behind, without labels. -/
theorem C66_shipped (C : Codec α) (N : Num α) (draws : Nat → Nat → α) (rest : List Char) :
    ∃ M', Model.loadModel N draws C Model.new (some (shippedStart ++ rest)) = some (.ok false, M') ∧ M'.layers.length = 1 ∧ M'.labels = [] := by
  obtain ⟨M', e, h1, h2⟩ := C66_kernel C N draws Model.new "(0) ----------".toList ("x 5\ny 5\nz 1\nn 2\nweights\n5 5 2\n".toList ++ rest) (by decide) .relu
  exact ⟨M', e, h1, h2⟩

end
end Cnn

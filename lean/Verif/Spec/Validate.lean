import Verif.Model.Validate
import Verif.Spec.Safe
import Verif.Spec.Slots
import Verif.Spec.Mnist
/-!
# Specification vocabulary for the validation run (C71-C74)
-/
namespace Cnn

/-- A layer that has been given `B` batch slots; a fully connected layer has been used before. -/
def Body.Settled {α : Type} (B : Nat) : Body α → Prop
  | .kernel K => K.wGrads.length = B ∧ K.bGrads.length = B
  | .pooling P => P.indices.length = B
  | .connected L => L.initialized = true ∧ L.wGrads.length = B ∧ L.bGrads.length = B
  | _ => True

/-- A model as training leaves it: its layers fit together for inputs of shape `s` and have been used, with `B` batch slots. -/
structure Model.Trained {α : Type} (M : Model α) (B : Nat) (s : Shape) (ks : List LayerKind) : Prop where
  runs : M.Runs s ks
  settled : ∀ l ∈ M.layers, l.body.Settled B

namespace Validate
variable {α : Type} [Zero α] [One α] [Add α] [Sub α] [Mul α] [Div α] [Neg α]

/-- The model, used alone, classifies the input as `l`. -/
def Predicts (E : Env α) (M : Model α) (X : Matrix α) (l : List Char) : Prop :=
  ∃ r M', M.forwardPropagation E X 0 = .ok (r, M') ∧ M.labels[r.labelIdx]? = some l

/-- The model, used alone, classifies image `i` of the files correctly. -/
def Right (E : Env α) (conv : F32 → α) (f : Mnist.Content) (M : Model α) (i : Nat) : Prop :=
  ∃ im, f.IsRecord i im ∧ Predicts E M (input conv im.data) (natText (f.label i).toNat)

/-- Thread `t` is about to call layer `k`. -/
def At (b : State α) (t k : Nat) : Prop := ∃ i im s, b.workers[t]? = some (.forward i im k s)

end Validate
end Cnn

import Verif.Model.Accuracy
import Verif.Spec.Safe
/-!
# Specification vocabulary for the number of successes (C79)
-/
namespace Cnn

/-- A layer with `B` batch slots. -/
def Body.Sized {α : Type} (B : Nat) : Body α → Prop
  | .kernel K => K.wGrads.length = B ∧ K.bGrads.length = B
  | .pooling P => P.indices.length = B
  | .connected L => L.wGrads.length = B ∧ L.bGrads.length = B
  | _ => True

/-- A model whose layers have `B` batch slots. -/
def Model.Sized {α : Type} (B : Nat) (M : Model α) : Prop := ∀ l ∈ M.layers, l.body.Sized B

/-- All fully connected layers have been used. -/
def Model.Used {α : Type} (M : Model α) : Prop := ∀ l ∈ M.layers, ∀ L, l.body = .connected L → L.initialized = true

variable {α : Type} [Zero α] [One α] [Add α] [Sub α] [Mul α] [Div α] [Neg α]

/-- The model, used alone, classifies the sample correctly: asked about its data it answers with the position of its label in the
list of labels. -/
def Model.Gets (E : Env α) (M : Model α) (x : Sample α) : Prop :=
  ∃ r M', M.forwardPropagation E x.data 0 = .ok (r, M') ∧ r.labelIdx = M.labels.idxOf x.label

open Classical in
/-- How many of the samples the model classifies correctly. -/
noncomputable def Model.score (E : Env α) (M : Model α) (xs : List (Sample α)) : Nat := xs.countP (fun x => decide (M.Gets E x))

namespace Train

/-- How many samples of an epoch are classified correctly by the model as it stands at the beginning of their batch. -/
noncomputable def epochScore (E : Env α) (p : Hyper α) : List (List Nat) → Model α → List (Sample α) → Nat
  | [], _, _ => 0
  | c :: cs, M, src => M.score E (src.take p.batch.toNat) +
    match runBatch E p c ⟨M, src, 0⟩ with
    | .ok (some q) => epochScore E p cs q.1.model (src.drop p.batch.toNat)
    | _ => 0

/-- The numbers of correctly classified samples of the epochs of a training. -/
noncomputable def epochScores (E : Env α) (p : Hyper α) (size : Nat) : List (List (List Nat) × List (Sample α)) → Model α → List Nat
  | [], _ => []
  | e :: es, M => epochScore E p e.1 M e.2 ::
    match runEpoch E p size e.1 ⟨M, e.2, 0⟩ with
    | .ok (some q) => epochScores E p size es q.1.model
    | _ => []

end Train
end Cnn

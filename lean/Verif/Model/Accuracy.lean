import Verif.Model.Train
/-!
# The accuracy reported by `train`
-/
namespace Cnn.Train
variable {α : Type} [Zero α] [One α] [Add α] [Sub α] [Mul α] [Div α] [Neg α]

/-- ModelDescription.tpp:289-293: the loop over the epochs with what `runEpoch` returns each time (`success_count`). -/
def reportLoop (E : Env α) (p : Hyper α) (size : Nat) : List (List (List Nat) × List (Sample α)) → Model α → Res (Option (Model α × List Nat))
  | [], M => .ok (some (M, []))
  | e :: es, M => do
    match ← runEpoch E p size e.1 ⟨M, e.2, 0⟩ with
    | none => .ok none
    | some q => do
      match ← reportLoop E p size es q.1.model with
      | none => .ok none
      | some r => .ok (some (r.1, q.1.hits :: r.2))

/-- ModelDescription.tpp:280-295 `train` again, with the numbers of successes from which the printed accuracies are computed. -/
def report (E : Env α) (p : Hyper α) (size : Nat) (epochs : List (List (List Nat) × List (Sample α))) (M : Model α) :
    Res (Option (Model α × List Nat)) := do
  let _ ← M.room p.batch
  if epochs.length = p.epochs.toNat then reportLoop E p size epochs (M.setBatchSize (u64 p.batch)) else .ok none

/-- ModelDescription.tpp:291: the number printed, `100.0 * success_count / data_source.size()`, without the rounding of the
division (the product is exact); not a number if the source reports the size 0. -/
def percent (successes size : Nat) : Option Rat := if size = 0 then none else some (100 * successes / size)

end Cnn.Train

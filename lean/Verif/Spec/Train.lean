import Verif.Model.Train
/-!
# Specification vocabulary for training (C50 – C55)
-/
namespace Cnn.Train
variable {α : Type}

/-- Thread, batch slot and sample of every fetch, in order. -/
def fetches (evs : List (Event α)) : List (Nat × Nat × Sample α) :=
  evs.filterMap fun | .fetch t slot x => some (t, slot, x) | _ => none

/-- Thread, batch slot and sample of everything that has been processed completely, in order. -/
def finishes (evs : List (Event α)) : List (Nat × Nat × Sample α) :=
  evs.filterMap fun | .finish t slot x => some (t, slot, x) | _ => none

/-- Thread, batch slot and sample of every label told to the output layer, in order. -/
def labelled (evs : List (Event α)) : List (Nat × Nat × Sample α) :=
  evs.filterMap fun | .label t slot x => some (t, slot, x) | _ => none

/-- Thread, batch slot, sample and the label used for every back-propagation of the output layer, in order. -/
def grads (evs : List (Event α)) : List (Nat × Nat × Sample α × Nat) :=
  evs.filterMap fun | .grad t slot x used => some (t, slot, x, used) | _ => none

/-- The batch slot thread `t` is working on, if any: its layer calls read and write only that slot. -/
def Batch.workingOn (s : Batch α) (t : Nat) : Option Nat :=
  match s.workers[t]?.map Prod.snd with
  | some (.forward slot _ _ _) => some slot
  | some (.label slot _ _) => some slot
  | some (.backward slot _ _ _ _) => some slot
  | _ => none

/-- The parts `[start t, stop t)` of the threads `t < T` are a partition of `0 … B-1`. -/
structure Partition (B T : Nat) (start stop : Nat → Nat) : Prop where
  covered : ∀ slot < B, ∃ t < T, start t ≤ slot ∧ slot < stop t
  disjoint : ∀ t < T, ∀ u < T, ∀ slot, start t ≤ slot → slot < stop t → start u ≤ slot → slot < stop u → t = u
  inside : ∀ t < T, ∀ slot, start t ≤ slot → slot < stop t → slot < B

end Cnn.Train

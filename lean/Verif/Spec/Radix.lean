import Mathlib.Data.List.Forall2
import Mathlib.Algebra.BigOperators.Group.List.Basic

/-!
Boxes of integer index tuples and their numbering with the first component fastest. Nothing here refers to the
model.
-/

namespace Cnn

/-- `idx` lies in the box with the extents `dim`. -/
def InBox (dim idx : List Int) : Prop := List.Forall₂ (fun d i => 0 ≤ i ∧ i < d) dim idx

/-- The number of an index tuple, first component fastest. -/
def radix : List Int → List Int → Int
  | d :: ds, i :: is => i + d * radix ds is
  | _, _ => 0

end Cnn

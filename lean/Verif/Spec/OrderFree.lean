import Verif.Spec.Slots
/-! Specification for C101: sums that do not depend on the order of their terms. -/
namespace Cnn

/-- Adding `n` values one after the other to zero gives the same for every order of the values. -/
def OrderFree (α : Type) [Zero α] [Add α] (n : Nat) : Prop :=
  ∀ l l' : List α, l.Perm l' → l.length = n → l.foldl (· + ·) 0 = l'.foldl (· + ·) 0

/-- Every gradient of a sample taken from the source was computed with the label of this sample. -/
def FetchedOwn {α : Type} [Zero α] [One α] [Add α] [Sub α] [Mul α] [Div α] [Neg α] (M : Model α) (evs : List (Train.Event α)) : Prop :=
  ∀ t slot x used, (t, slot, x) ∈ Train.fetches evs → (t, slot, x, used) ∈ Train.grads evs → used = M.labelIndex x.label

end Cnn

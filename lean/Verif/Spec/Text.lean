import Verif.Spec.Shows
import Verif.Model.Stream
/-!
# Specification vocabulary for saved text

What is assumed of the conversion of entries to and from text. `Codec.Lawful` is proved for IEEE binary32 and binary64
in `Verif/Lemmas/Codec.lean`.
-/
namespace Cnn
variable {α : Type}

/-- Printing with six decimals, reading the nearest value and printing again gives the same digits, and reading does not
overflow; other values are printed as words. -/
structure Codec.Lawful (C : Codec α) : Prop where
  reread : ∀ a f, C.fixed a = some f → ∃ b, C.ofDec ⟨f.neg, f.micro, -6⟩ = (b, false) ∧ C.fixed b = some f
  words : ∀ a, C.fixed a = none → C.word a ∈ [['i', 'n', 'f'], ['-', 'i', 'n', 'f'], ['n', 'a', 'n'], ['-', 'n', 'a', 'n']]

/-- A value that is neither infinite nor NaN. -/
def Codec.Finite (C : Codec α) (a : α) : Prop := C.fixed a ≠ none

/-- Two values that agree to six decimals. -/
def Codec.Same (C : Codec α) (a b : α) : Prop := C.fixed a = C.fixed b ∧ C.Finite b

/-- The matrices `M'` and `M` have the same shape, and `M'` has the entries of `M` rounded to six decimals. -/
def Codec.SameMatrix (C : Codec α) (M' M : Matrix α) : Prop :=
  ∃ X Y Z f g, M.Shows X Y Z f ∧ M'.Shows X Y Z g ∧ ∀ i < X, ∀ j < Y, ∀ k < Z, C.Same (g i j k) (f i j k)

end Cnn

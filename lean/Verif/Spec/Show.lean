import Mathlib.Data.Rat.Defs
import Mathlib.Algebra.Order.Ring.Abs
import Mathlib.Data.Rat.Cast.Order

/-!
What a printed matrix should look like. Nothing here refers to the model.
-/

namespace Cnn

namespace Show

/-- A text flush right in `w` columns (longer texts are not cut). -/
def flushRight (w : Nat) (t : List Char) : List Char := List.replicate (w - t.length) ' ' ++ t

/-- One printed row: for every layer the entries in brackets, separated by commas, then three blanks. -/
def line (Y Z : Nat) (cell : Nat → Nat → List Char) : List Char :=
  (List.range Z).flatMap fun k =>
    ['['] ++ List.intercalate [','] ((List.range Y).map fun j => cell j k) ++ [']', ' ', ' ', ' ']

/-- The whole print: an empty line, then a line for each row, with the layers side by side. -/
def layout (X Y Z : Nat) (cell : Nat → Nat → Nat → List Char) : List Char :=
  ['\n'] ++ (List.range X).flatMap fun i => line Y Z (cell i) ++ ['\n']

/-- The digits of a natural number. -/
def digits (n : Nat) : List Char := (toString n).toList

/-- `c` hundredths with two decimals. -/
def centText (c : Nat) : List Char :=
  digits (c / 100) ++ ['.'] ++ digits (c / 10 % 10) ++ digits (c % 10)

/-- `c` is a number of hundredths nearest to `q`. -/
def Cents (q : ℚ) (c : Nat) : Prop := |100 * q - c| ≤ 1 / 2

end Show

end Cnn

import Mathlib.Data.Int.Log
import Mathlib.Data.Rat.Floor
import Mathlib.Algebra.Ring.Int.Parity
/-!
# Rounding to a number of binary digits

The rounding of IEEE 754 (to nearest, ties to even) on the rationals, for the roundings `r32` and `r64` that are parameters of the
display functions (Display.lean, Console.lean, Validate.lean). Exponents are not limited.
-/
namespace Cnn

/-- The nearest integer, the even one of two. -/
def evenInt (y : ℚ) : ℤ :=
  if Int.fract y < 1 / 2 then ⌊y⌋
  else if 1 / 2 < Int.fract y then ⌊y⌋ + 1
  else if Even ⌊y⌋ then ⌊y⌋ else ⌊y⌋ + 1

/-- The distance between neighbours near `q`. -/
def gridAt (p : Nat) (q : ℚ) : ℚ := 2 ^ (Int.log 2 q + 1 - p)

/-- The number with `p` binary digits nearest to `q`. -/
def nearest (p : Nat) (q : ℚ) : ℚ :=
  if 0 ≤ q then evenInt (q / gridAt p q) * gridAt p q else - (evenInt (-q / gridAt p (-q)) * gridAt p (-q))

end Cnn

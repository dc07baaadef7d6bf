import Verif.Model.Network
import Mathlib.Analysis.SpecialFunctions.Log.Base
import Mathlib.Analysis.SpecialFunctions.Trigonometric.DerivHyp
import Mathlib.Data.Int.Log
/-!
# The types `double` and `float`

IEEE 754 binary64, the type `double` in which the layers of /repo compute (`SimpleMatrix<double>`), and the rounding to
binary32 of the records (ModelDescription.tpp:165,172,180). Numbers are rounded to the nearest representable number, ties to
the even one; a result that is too large becomes an infinity. Simplifications: one zero instead of two (`x / 0` has the sign
of `x`), one NaN, and the library functions `exp`, `tanh`, `sqrt`, `log2` round correctly.
-/
namespace Cnn

/-- The nearest integer, the even one of two. -/
noncomputable def roundEven (y : ℝ) : ℤ :=
  if Int.fract y < 1 / 2 then ⌊y⌋
  else if 1 / 2 < Int.fract y then ⌊y⌋ + 1
  else if Even ⌊y⌋ then ⌊y⌋ else ⌊y⌋ + 1

/-- A binary format: significands of `bits` bits; `low` is the exponent of the smallest positive number; numbers are below
`2 ^ high`. -/
structure Format where
  bits : ℤ
  low : ℤ
  high : ℤ

namespace Format

def double : Format := ⟨53, -1074, 1024⟩

def float : Format := ⟨24, -149, 128⟩

/-- The numbers of the format near `x` are the multiples of `2 ^ spacing`. -/
noncomputable def spacing (f : Format) (x : ℝ) : ℤ := max (Int.log 2 |x| + 1 - f.bits) f.low

noncomputable def round (f : Format) (x : ℝ) : ℝ := roundEven (x / 2 ^ f.spacing x) * 2 ^ f.spacing x

/-- The finite numbers of the format. -/
def Has (f : Format) (x : ℝ) : Prop :=
  (∃ m e : ℤ, |(m : ℝ)| < 2 ^ f.bits ∧ f.low ≤ e ∧ x = m * 2 ^ e) ∧ |x| < 2 ^ f.high

end Format

/-- A number (meant to be one of `Format.double`), an infinity (`true`: negative) or NaN. -/
inductive Double
  | num (x : ℝ)
  | inf (negative : Bool)
  | nan

namespace Double
open Classical

/-- Rounding to a format. -/
noncomputable def round (f : Format) (x : ℝ) : Double :=
  if |f.round x| < 2 ^ f.high then num (f.round x) else inf (decide (x < 0))

noncomputable def of (x : ℝ) : Double := round .double x

noncomputable instance : Zero Double := ⟨num 0⟩
noncomputable instance : One Double := ⟨num 1⟩

noncomputable instance : Neg Double where
  neg
    | num x => num (-x)
    | inf s => inf !s
    | nan => nan

noncomputable instance : Add Double where
  add
    | num x, num y => of (x + y)
    | num _, inf s => inf s
    | inf s, num _ => inf s
    | inf s, inf t => if s = t then inf s else nan
    | _, _ => nan

noncomputable instance : Sub Double where
  sub
    | num x, num y => of (x - y)
    | num _, inf s => inf !s
    | inf s, num _ => inf s
    | inf s, inf t => if s = t then nan else inf s
    | _, _ => nan

noncomputable instance : Mul Double where
  mul
    | num x, num y => of (x * y)
    | num x, inf s => if x = 0 then nan else inf (s != decide (x < 0))
    | inf s, num x => if x = 0 then nan else inf (s != decide (x < 0))
    | inf s, inf t => inf (s != t)
    | _, _ => nan

noncomputable instance : Div Double where
  div
    | num x, num y => if y = 0 then (if x = 0 then nan else inf (decide (x < 0))) else of (x / y)
    | num _, inf _ => num 0
    | inf s, num y => inf (s != decide (y < 0))
    | _, _ => nan

/-- The operator `<`: false if one of the two is NaN. -/
noncomputable def lt : Double → Double → Bool
  | num x, num y => decide (x < y)
  | num _, inf s => !s
  | inf s, num _ => s
  | inf s, inf t => s && !t
  | _, _ => false

/-- The conversion to `float` and back. -/
noncomputable def toFloat : Double → Double
  | num x => round .float x
  | a => a

noncomputable def arith : Num Double where
  exp
    | num x => of (Real.exp x)
    | inf true => num 0
    | inf false => inf false
    | nan => nan
  tanh
    | num x => of (Real.tanh x)
    | inf s => num (if s then -1 else 1)
    | nan => nan
  sqrt
    | num x => if x < 0 then nan else of (Real.sqrt x)
    | inf false => inf false
    | _ => nan
  log2
    | num x => if x < 0 then nan else if x = 0 then inf true else of (Real.logb 2 x)
    | inf false => inf false
    | _ => nan
  ofNat n := of n
  lt := lt
  slopeF := num (13421773 / 2 ^ 27)
  slopeD := num (3602879701896397 / 2 ^ 55)
  eps := num (10995116 / 2 ^ 40)

end Double
end Cnn

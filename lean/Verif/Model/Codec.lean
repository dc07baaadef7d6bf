import Verif.Model.Stream
import Verif.Model.Float32
import Mathlib.Tactic.Positivity
/-!
# IEEE binary formats and their text

The entries of the matrices that are written to files are `double` (weights, biases) or `float`. A finite value is
`± m * 2^e`; an infinity or NaN is kept apart. `os << std::fixed << v` prints the value rounded to six decimals, ties to
even (glibc); `is >> v` calls `strtod`/`strtof`, which round to nearest, ties to even, and report an overflow (then
libstdc++ stores the largest finite value).
-/
namespace Cnn

/-- A binary format: significand of `p` bits, exponents of the last bit from `emin` to `emax`. -/
structure Fmt where
  p : Nat
  emin : Int
  emax : Int
  hp : 0 < p
  hmin : emin ≤ 0
  hmax : 0 ≤ emax

/-- `float`. -/
def Fmt.binary32 : Fmt := ⟨24, -149, 104, by decide, by decide, by decide⟩

/-- `double`. -/
def Fmt.binary64 : Fmt := ⟨53, -1074, 971, by decide, by decide, by decide⟩

/-- Values of a format (a finite value may have several representations). -/
inductive Ieee (F : Fmt) where
  | fin (neg : Bool) (m : Nat) (e : Int) (hm : m < 2 ^ F.p) (he : F.emin ≤ e ∧ e ≤ F.emax)
  | inf (neg : Bool)
  | nan (neg : Bool)

namespace Ieee
variable {F : Fmt}

instance : Zero (Ieee F) := ⟨.fin false 0 0 (by positivity) ⟨F.hmin, F.hmax⟩⟩

/-- The value in millionths, rounded to nearest, ties to even. -/
def fixed : Ieee F → Option Fix
  | .fin neg m e _ _ => some ⟨neg, F32.rhe (m * 2 ^ e.toNat * 1000000) (2 ^ (-e).toNat)⟩
  | _ => none

/-- How glibc prints the other values. -/
def word : Ieee F → List Char
  | .inf false => ['i', 'n', 'f']
  | .inf true => ['-', 'i', 'n', 'f']
  | .nan true => ['-', 'n', 'a', 'n']
  | _ => ['n', 'a', 'n']

/-- The value `± m * 2^e` if it belongs to the format, otherwise the largest finite value and `true`. -/
def make (neg : Bool) (m : Nat) (e : Int) : Ieee F × Bool :=
  if h : m < 2 ^ F.p ∧ F.emin ≤ e ∧ e ≤ F.emax then (.fin neg m e h.1 h.2, false)
  else (.fin neg (2 ^ F.p - 1) F.emax (Nat.sub_lt (by positivity) (by decide)) ⟨F.hmin.trans F.hmax, le_refl _⟩, true)

/-- The value of the format nearest to a positive fraction `P/Q`. -/
def near (neg : Bool) (P Q : Nat) : Ieee F × Bool :=
  let e : Int := max F.emin (F32.expo P Q - (F.p - 1 : Nat))
  let m := F32.rhe (P * 2 ^ (-e).toNat) (Q * 2 ^ e.toNat)
  if m = 2 ^ F.p then make neg (2 ^ (F.p - 1)) (e + 1) else make neg m e

/-- `strtod` of a decimal number. -/
def ofDec (d : Dec) : Ieee F × Bool :=
  if d.mant = 0 then make d.neg 0 0 else near d.neg (d.mant * 10 ^ d.exp.toNat) (10 ^ (-d.exp).toNat)

/-- Text of the format. -/
def codec (F : Fmt) : Codec (Ieee F) := ⟨fixed, word, ofDec⟩

end Ieee
end Cnn

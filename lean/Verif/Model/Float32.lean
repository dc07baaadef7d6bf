import Verif.Model.Dim
/-!
# IEEE binary32 arithmetic as far as the code computes sizes with `float`

Used by Pooling.cpp:38-39 and ModelDescription.tpp (number of batches). A finite value is a fraction; every
operation rounds to 24 significant bits, ties to even. Overflow to infinity and subnormal results do not occur for
quotients of `int`s and are not modelled; a division by zero is `none`.
-/
namespace Cnn

structure F32 where
  num : Int
  den : Nat
  deriving DecidableEq, Repr

namespace F32

/-- `p/d` rounded to the nearest natural number, ties to even. -/
def rhe (p d : Nat) : Nat :=
  let q := p / d
  let r := p % d
  if 2 * r < d then q else if d < 2 * r then q + 1 else if q % 2 = 0 then q else q + 1

/-- The binary exponent of `p/d` (for `p, d > 0`): `2^e ≤ p/d < 2^(e+1)`. -/
def expo (p d : Nat) : Int :=
  let t : Int := (Nat.log2 p : Int) - Nat.log2 d
  if d * 2 ^ t.toNat ≤ p * 2 ^ (-t).toNat then t else t - 1

/-- Rounding of the positive fraction `p/d` to 24 significant bits. -/
def rndPos (p d : Nat) : F32 :=
  let s : Int := 23 - expo p d
  ⟨(rhe (p * 2 ^ s.toNat) (d * 2 ^ (-s).toNat) * 2 ^ (-s).toNat : Nat), 2 ^ s.toNat⟩

/-- Rounding of the fraction `p/d`, `d > 0`. -/
def rnd (p : Int) (d : Nat) : F32 :=
  if p = 0 then ⟨0, 1⟩
  else if 0 < p then rndPos p.natAbs d
  else let r := rndPos p.natAbs d; ⟨-r.num, r.den⟩

/-- Conversion of an integer. -/
def ofInt (n : Int) : F32 := rnd n 1

def add (a b : F32) : F32 := rnd (a.num * b.den + b.num * a.den) (a.den * b.den)

def div (a b : F32) : Option F32 :=
  if b.num = 0 then none
  else some (rnd (a.num * b.den * b.num.sign) (a.den * b.num.natAbs))

/-- `std::ceil`. -/
def ceil (a : F32) : Int := -((-a.num) / (a.den : Int))

end F32
end Cnn

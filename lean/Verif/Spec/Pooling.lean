import Verif.Spec.Shows
/-!
# Specification vocabulary for pooling (C29 – C32)
-/
namespace Cnn

/-- The number of positions `0, s, 2s, …` at which a window of length `d` fits into `0 … n-1` (for `d ≤ n`). -/
def windows (n d s : Nat) : Nat := (n - d) / s + 1

/-- An input of `X × Y` that a pool of size `px × py` with strides `sx`, `sy` can process exactly. -/
structure PoolFits (X Y px py sx sy : Nat) : Prop where
  px0 : 0 < px
  py0 : 0 < py
  sx0 : 0 < sx
  sy0 : 0 < sy
  x : px ≤ X
  y : py ≤ Y
  /-- the sizes are computed in `float`, exact below 2^24 -/
  xSmall : X - px + 1 < 2 ^ 24
  ySmall : Y - py + 1 < 2 ^ 24

end Cnn

import Verif.Spec.Safe
/-!
# Layers that slide a window over their input (C102, C103)

Convolution, pooling and activation layers compute each output entry from a rectangle of the input, the same way at every
position. `field` is the rectangle from which a sequence of such layers computes one entry of its result.
-/
namespace Cnn

/-- The position, among the entries `F 0, …, F (n-1)`, which a scan from the left keeps when it moves on whenever
`moves (kept) (next)`. -/
def scan {α : Type} (moves : α → α → Bool) (F : Nat → α) : Nat → Nat
  | 0 => 0
  | n + 1 => if moves (F (scan moves F n)) (F n) then n else scan moves F n

/-- A rectangle of `w × h` entries, moved by `sx` and `sy` entries from one output to the next. -/
structure Field where
  w : Nat
  h : Nat
  sx : Nat
  sy : Nat
  deriving DecidableEq, Repr

namespace LayerKind

/-- The rectangle from which a layer computes one entry. -/
def field : LayerKind → Field
  | conv A B _ _ => ⟨A, B, 1, 1⟩
  | pool _ px py sx sy => ⟨px, py, sx, sy⟩
  | _ => ⟨1, 1, 1, 1⟩

/-- A layer which slides a window, and can process inputs of shape `X × Y × Z`. -/
def Slides (X Y Z : Nat) : LayerKind → Prop
  | conv A B C F => Z = C ∧ 0 < A ∧ 0 < B ∧ ConvFits X Y A B F
  | pool _ px py sx sy => PoolFits X Y px py sx sy
  | act _ => True
  | full _ => False

end LayerKind

/-- All layers of a sequence slide a window over what the one before gives. -/
def KindsSlide : List LayerKind → Shape → Prop
  | [], _ => True
  | k :: ks, s => k.Slides s.X s.Y s.Z ∧ KindsSlide ks (k.out s)

/-- The rectangle of a layer after others: each of the `k.field.w` entries the layer looks at comes from a rectangle of the
layers before it, and neighbouring ones are `f.sx` entries apart. -/
def Field.after (f : Field) (k : LayerKind) : Field :=
  ⟨(k.field.w - 1) * f.sx + f.w, (k.field.h - 1) * f.sy + f.h, k.field.sx * f.sx, k.field.sy * f.sy⟩

/-- The rectangle of a sequence of layers. -/
def field (ks : List LayerKind) : Field := ks.foldl Field.after ⟨1, 1, 1, 1⟩

/-- The rectangle of `x` for the output `(i, j)` holds the same numbers as that of `x'` for the output `(i', j')`, in all `Z`
layers. -/
def SameField {α : Type} (f : Field) (Z : Nat) (x x' : Nat → Nat → Nat → α) (i j i' j' : Nat) : Prop :=
  ∀ a < f.w, ∀ c < f.h, ∀ k < Z, x (i * f.sx + a) (j * f.sy + c) k = x' (i' * f.sx + a) (j' * f.sy + c) k

/-- The layer object slides a window as the kind says (and has a batch slot `b`). -/
def Body.Slides {α : Type} (b : Nat) : Body α → LayerKind → Prop
  | .kernel K, .conv A B C F => ∃ w β, K.Is A B C F 1 w β
  | .pooling P, .pool t px py sx sy => P.type = t ∧ P.dim = ⟨px, py⟩ ∧ P.stride = ⟨sx, sy⟩ ∧ b < P.indices.length
  | .activation _, .act _ => True
  | _, _ => False

end Cnn

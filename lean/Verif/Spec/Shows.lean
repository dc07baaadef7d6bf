import Verif.Model.Matrix
/-!
# Specification vocabulary for matrices

`M.Shows X Y Z f`: the matrix `M` is an ordinary non-empty `X × Y × Z` matrix whose entry at row `i`,
column `j`, layer `k` is `f i j k`. It speaks only about what a caller can observe: `dim()`, the number of
stored entries and `operator()`.
-/
namespace Cnn

/-- Dimensions of an ordinary matrix: positive, and the number of entries fits an `int`. -/
structure Good (X Y Z : Nat) : Prop where
  x : 0 < X
  y : 0 < Y
  z : 0 < Z
  small : X * Y * Z < 2147483648

/-- The `Dim3` with natural components. -/
@[reducible] def dimN (X Y Z : Nat) : Dim3 := ⟨(X : Int), (Y : Int), (Z : Int)⟩

structure Matrix.Shows {α : Type} (M : Matrix α) (X Y Z : Nat) (f : Nat → Nat → Nat → α) : Prop where
  good : Good X Y Z
  dim : M.dim = dimN X Y Z
  length : M.vals.length = X * Y * Z
  entry : ∀ i < X, ∀ j < Y, ∀ k < Z, M.read (dimN i j k) = .ok (f i j k)

/-- The dimensions of a matrix and what reading its entries gives; all that `+=` needs to know about its right side. -/
structure Matrix.Reads {α : Type} (M : Matrix α) (X Y Z : Nat) (f : Nat → Nat → Nat → α) : Prop where
  dim : M.dim = dimN X Y Z
  entry : ∀ i < X, ∀ j < Y, ∀ k < Z, M.read (dimN i j k) = .ok (f i j k)

/-- The entry at row `a`, column `b`, layer `c` (0 if there is none). -/
def Matrix.value {α : Type} [Zero α] (M : Matrix α) (a b c : Nat) : α :=
  match M.read (dimN a b c) with
  | .ok v => v
  | _ => 0

/-- `Shows` for a lazy expression or view: its `dim()`, its `operator()`, and what its iterators deliver. -/
structure MExpr.Shows {α : Type} (e : MExpr α) (X Y Z : Nat) (f : Nat → Nat → Nat → α) : Prop where
  good : Good X Y Z
  dim : e.dim = dimN X Y Z
  entry : ∀ i < X, ∀ j < Y, ∀ k < Z, e.get (dimN i j k) = .ok (f i j k)
  deref : ∀ i < X, ∀ j < Y, ∀ k < Z,
    e.deref ⟨dimN i j k, dimN X Y Z, i + j * X + k * (X * Y)⟩ = .ok (f i j k)

/-- A row or column vector of length `n` with entries `v`. -/
def MExpr.IsVec {α : Type} (E : MExpr α) (n : Nat) (v : Nat → α) : Prop :=
  E.Shows 1 n 1 (fun _ j _ => v j) ∨ E.Shows n 1 1 (fun i _ _ => v i)

/-- The same for a stored matrix. -/
def Matrix.IsVec {α : Type} (M : Matrix α) (n : Nat) (v : Nat → α) : Prop :=
  M.Shows 1 n 1 (fun _ j _ => v j) ∨ M.Shows n 1 1 (fun i _ _ => v i)

/-- The box `[s, s+w)` of a view inside an `X × Y × Z` matrix. -/
structure Box (X Y Z sx sy sz wx wy wz : Nat) : Prop where
  x : sx + wx ≤ X
  y : sy + wy ≤ Y
  z : sz + wz ≤ Z

/-- Index `(i,j,k)` lies in the box with corner `(sx,sy,sz)` and size `(wx,wy,wz)`. -/
def inBox (sx sy sz wx wy wz i j k : Nat) : Prop :=
  (sx ≤ i ∧ i < sx + wx) ∧ (sy ≤ j ∧ j < sy + wy) ∧ (sz ≤ k ∧ k < sz + wz)

instance (sx sy sz wx wy wz i j k : Nat) : Decidable (inBox sx sy sz wx wy wz i j k) := by
  unfold inBox; infer_instance

end Cnn

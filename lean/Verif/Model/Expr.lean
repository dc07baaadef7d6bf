import Verif.Model.Matrix
import Mathlib.Data.Rat.Cast.Defs
/-!
# Lazy expressions and reductions (include/cnn_from_scratch/Matrix/MatrixMath.h)

The C++ classes store either references to named operands or moved-in temporaries and evaluate on access.
`MExpr` is that: dimensions plus a reader. Entry types may differ between operands; the C++ result type
(`std::common_type`) is the codomain of the operator.
-/
namespace Cnn
namespace MExpr
variable {α β γ : Type}

/-- MatrixMath.h:116-162 `ElementWiseMatrixOperationResult` and the binary operators `+ - * / < <= > >= != ==`
(`op` is the operator on entries). The constructor checks the sizes (MatrixMath.h:129). -/
def bin (op : α → β → γ) (A : MExpr α) (B : MExpr β) : Res (MExpr γ) := do
  Matrix.checkSize A.dim B.dim
  .ok { dim := A.dim, get := fun i => do let a ← A.get i; let b ← B.get i; .ok (op a b) }

/-- MatrixMath.h:283-334 `ScalarOperationResult`; `op` is `(· op s)` or `(s op ·)`; the scalar is stored by
value (MatrixMath.h:309). -/
def scal (op : α → γ) (A : MExpr α) : MExpr γ :=
  { dim := A.dim, get := fun i => do let a ← A.get i; .ok (op a) }

/-- MatrixMath.h:353-411 `UnaryOperationResult` with `apply`, `abs`, `exp`. -/
def un (op : α → γ) (A : MExpr α) : MExpr γ :=
  { dim := A.dim, get := fun i => do let a ← A.get i; .ok (op a) }

/-- MatrixMath.h:413-422 `transpose` of a named operand or of a temporary view (a view's implicit move is
suppressed by its user-declared copy assignment, SubMatrixView.h:87, so `M.dim()` is intact after
`std::forward`). -/
def transpose (A : MExpr α) : MExpr α :=
  { dim := ⟨A.dim.y, A.dim.x, A.dim.z⟩, get := fun i => A.get ⟨i.y, i.x, i.z⟩ }

/-- MatrixMath.h:413-422 `transpose` of a temporary matrix or lazy expression: line 418 moves `M` into the
result, which zeroes `M.dim_` (dim.h:33-36); lines 419-420 then copy those zeros. -/
def transposeTemp (A : MExpr α) : MExpr α :=
  let movedFrom := (Dim3.move A.dim).2
  { dim := ⟨movedFrom.y, movedFrom.x, A.dim.z⟩, get := fun i => A.get ⟨i.y, i.x, i.z⟩ }

/-- MatrixMath.h:433-448: the source index of `rotate<n>` (M.dim() is the stored operand's). -/
def rotIdx (n : Nat) (d i : Dim3) : Dim3 :=
  if n = 1 then ⟨d.y - i.y - 1, i.x, i.z⟩
  else if n = 2 then ⟨d.x - i.x - 1, d.y - i.y - 1, i.z⟩
  else if n = 3 then ⟨i.y, d.x - i.x - 1, i.z⟩
  else ⟨0, 0, i.z⟩

/-- MatrixMath.h:424-451 `rotate<n>`. -/
def rotate (n : Nat) (A : MExpr α) : Res (MExpr α) :=
  if Matrix.isSquareD A.dim then
    .ok { dim := A.dim, get := fun i => A.get (rotIdx n A.dim i) }
  else .throw .matrixTransform

/-- MatrixMath.h:237-246: one entry of a matrix product (`size_t` loop counter). -/
def mulEntry [Zero α] [Add α] [Mul α] (A B : MExpr α) (idx : Dim3) : Res α :=
  (List.range (u64 A.dim.y)).foldlM (fun sum (i : Nat) => do
    let a ← A.get ⟨idx.x, (i : Int), idx.z⟩
    let b ← B.get ⟨(i : Int), idx.y, idx.z⟩
    .ok (sum + a * b)) 0

/-- How an operand reaches `matrixMultiply` at MatrixMath.h:248-249: `kept` – a named operand or a view (its
`dim()` is not affected by `std::forward`); `movedLate` – a temporary whose move into the parameter happens
after the dimension argument has been computed; `movedEarly` – a temporary moved before (its `dim()` then
reads zero). The compiler may choose any order of argument evaluation. -/
inductive Pass | kept | movedLate | movedEarly
  deriving DecidableEq, Repr

/-- `M.dim()` as read by the dimension argument. -/
def Pass.dim (p : Pass) (d : Dim3) : Dim3 :=
  match p with
  | .kept | .movedLate => d
  | .movedEarly => (Dim3.move d).2

/-- MatrixMath.h:227-250 `matrixMultiply`. -/
def matMulP [Zero α] [Add α] [Mul α] (p q : Pass) (A B : MExpr α) : Res (MExpr α) :=
  if A.dim.z ≠ B.dim.z || A.dim.y ≠ B.dim.x then .throw .matrixSize
  else .ok { dim := ⟨(p.dim A.dim).x, (q.dim B.dim).y, (p.dim A.dim).z⟩, get := mulEntry A B }

/-- `matrixMultiply` on named operands. -/
def matMul [Zero α] [Add α] [Mul α] (A B : MExpr α) : Res (MExpr α) := matMulP .kept .kept A B

/-- MatrixMath.h:263-273: one entry of a convolution (`uint32_t` loop counters). -/
def convEntry [Zero α] [Add α] [Mul α] (A B : MExpr α) (stride : Dim2) (idx : Dim3) : Res α :=
  (List.range (u32 B.dim.x)).foldlM (fun sum (x : Nat) =>
    (List.range (u32 B.dim.y)).foldlM (fun sum (y : Nat) => do
      let a ← A.get (⟨(x : Int), (y : Int), 0⟩ + ⟨idx.x * stride.x, idx.y * stride.y, 0⟩)
      let b ← B.get ⟨(x : Int), (y : Int), 0⟩
      .ok (sum + a * b)) sum) 0

/-- MatrixMath.h:252-277 `convolve`; the `assert` aborts the program. -/
def convolve [Zero α] [Add α] [Mul α] (A B : MExpr α) (stride : Dim2) : Res (MExpr α) :=
  if Matrix.isFlatD A.dim && Matrix.isFlatD B.dim then
    .ok { dim := ⟨A.dim.x - B.dim.x + 1, A.dim.y - B.dim.y + 1, 1⟩, get := convEntry A B stride }
  else .abort

/-! ### Reductions -/

/-- MatrixMath.h:457-461 `sum` (`std::accumulate`). The loop is the one of matrices and expressions; for a view
the end iterator is computed differently but equal (`finView_idx`). -/
def sum [Zero α] [Add α] (A : MExpr α) : Res α :=
  forRange A.dim (fun acc it => do let a ← A.deref it; .ok (acc + a)) 0

/-- MatrixMath.h:463-466 `mean` for a floating entry type: `sum(M) / M.size()`, the size converted by `ofNat`. -/
def mean [Zero α] [Add α] [Div α] (ofNat : Nat → α) (A : MExpr α) : Res α := do
  let s ← A.sum
  let n ← Matrix.sizeD A.dim
  .ok (s / ofNat n)

/-- MatrixMath.h:457-461 `sum` for `int` entries: signed overflow of the accumulator is undefined. -/
def sumInt (A : MExpr Int) : Res Int :=
  forRange A.dim (fun acc it => do let a ← A.deref it; chk (acc + a)) 0

/-- MatrixMath.h:463-466 `mean` for `int` entries: `int / size_t` is computed in `size_t`
(the sum is converted modulo 2^64). Division by zero is undefined. -/
def meanInt (A : MExpr Int) : Res Nat := do
  let s ← A.sumInt
  let n ← Matrix.sizeD A.dim
  if n = 0 then .ub else .ok (u64 s / n)

/-- `std::max_element` / `std::min_element` (libstdc++): `better a b` is `*result < *first` resp.
`*first < *result`. Returns an iterator, `end()` for an empty range. -/
def bestElem (better : α → α → Bool) (A : MExpr α) : Res Iter :=
  if (Iter.beg A.dim).same (Iter.fin A.dim) then .ok (Iter.fin A.dim)
  else Iter.loop (Iter.fin A.dim) (fun (result : Iter) it => do
    let a ← A.deref result
    let b ← A.deref it
    .ok (if better a b then it else result)) (Iter.fuel A.dim - 1) (Iter.beg A.dim).next (Iter.beg A.dim)

/-- MatrixMath.h:468-471 `max`. -/
def max (lt : α → α → Bool) (A : MExpr α) : Res α := do
  let it ← bestElem (fun a b => lt a b) A
  A.deref it

/-- MatrixMath.h:473-476 `min`. -/
def min (lt : α → α → Bool) (A : MExpr α) : Res α := do
  let it ← bestElem (fun a b => lt b a) A
  A.deref it

/-- MatrixMath.h:483-486 `maxIndex`. -/
def maxIndex (lt : α → α → Bool) (A : MExpr α) : Res Dim3 := do
  let it ← bestElem (fun a b => lt a b) A
  .ok it.idx

/-- MatrixMath.h:478-481 `minIndex`. -/
def minIndex (lt : α → α → Bool) (A : MExpr α) : Res Dim3 := do
  let it ← bestElem (fun a b => lt b a) A
  .ok it.idx

/-- SimpleMatrix.tpp:215-218 `maxIndex()` (member): `std::distance` is `operator-` converted to `size_t`. -/
def maxIndexFlat (lt : α → α → Bool) (A : MExpr α) : Res Nat := do
  let it ← bestElem (fun a b => lt a b) A
  .ok (u64 (it.diff (Iter.beg A.dim)))

/-- SimpleMatrix.tpp:210-213 `minIndex()` (member). -/
def minIndexFlat (lt : α → α → Bool) (A : MExpr α) : Res Nat := do
  let it ← bestElem (fun a b => lt b a) A
  .ok (u64 (it.diff (Iter.beg A.dim)))

/-- MatrixMath.h:488-491 `l2Norm`. -/
def l2Norm [Zero α] [Add α] [Mul α] (sqrt : α → α) (A : MExpr α) : Res α := do
  let AA ← bin (· * ·) A A
  let s ← AA.sum
  .ok (sqrt s)

/-- MatrixMath.h:177-192 `dot`: `std::inner_product` with the initial value `0`, an `int`, so the accumulator is
an `int`; `step acc a b` is `acc + a*b` converted back to `int`. The second iterator runs over the second
operand's own dimensions. -/
def dot (step : Int → α → β → Res Int) (A : MExpr α) (B : MExpr β) : Res Int := do
  let n1 ← Matrix.sizeD A.dim
  let n2 ← Matrix.sizeD B.dim
  if n1 ≠ n2 || A.dim.z ≠ 1 || B.dim.z ≠ 1 || (A.dim.x ≠ 1 && A.dim.y ≠ 1) || (B.dim.x ≠ 1 && B.dim.y ≠ 1) then
    .throw .matrixSize
  else do
    let r ← forRange A.dim (fun (s : Int × Iter) it => do
      let a ← A.deref it
      let b ← B.deref s.2
      let acc ← step s.1 a b
      .ok (acc, s.2.next)) (0, Iter.beg B.dim)
    .ok r.1

/-- MatrixMath.h:191, one step of `std::inner_product` on `int` entries: overflow is undefined. -/
def stepInt (acc a b : Int) : Res Int := do
  let p ← chk (a * b)
  chk (acc + p)

/-- Conversion of a floating-point number to `int` truncates towards zero. -/
def truncQ (q : ℚ) : Int := q.num.tdiv q.den

/-- MatrixMath.h:191, one step of `std::inner_product` on floating entries: `acc = acc + a*b` is computed in the
floating type (exactly here, rounding not modelled) and converted to the accumulator's type `int`; out of range is
undefined. -/
def stepRat (acc : Int) (a b : ℚ) : Res Int := chk (truncQ ((acc : ℚ) + a * b))

/-- MatrixMath.h:497-506, 508-517 `matrixEqual`: the loop stops at the first difference; `eq` is `==` resp.
`|a-b| <= eps`. -/
def matrixEqual (eq : α → β → Bool) (A : MExpr α) (B : MExpr β) : Res Bool :=
  if A.dim ≠ B.dim then .ok false
  else forRange A.dim (fun equal it =>
    if equal then do
      let a ← A.deref it
      let b ← B.get it.idx
      .ok (eq a b)
    else .ok false) true

end MExpr
end Cnn

import Verif.Model.Dim
/-!
# `MatrixBase`, `SimpleMatrix`, lazy expressions and views: core operations
-/
namespace Cnn

/-- SimpleMatrix.h:18-132: `dim_` (MatrixBase.h:37) and `values_` (SimpleMatrix.h:131). -/
structure Matrix (α : Type) where
  dim : Dim3
  vals : List α
  deriving DecidableEq, Repr

/-- SimpleMatrix.tpp:131-139 `getIndex`: the `int` components are converted to `size_t`, arithmetic is
modulo 2^64. -/
def getIndex (d i : Dim3) : Nat :=
  ((i.z * d.y * d.x + i.y * d.x + i.x) % 18446744073709551616).toNat

/-- `std::vector<T>(n)` / `resize(n)` with `n` an `int` product converted to `size_t`: a negative value
becomes larger than `max_size()` and throws `std::length_error`. Running out of memory is not modelled. -/
def vecSize (d : Dim3) : Res Nat := do
  let n ← d.volume
  if n < 0 then .throw .length else .ok n.toNat

namespace Matrix
variable {α β : Type}

/-- MatrixBase.h:12-14 -/
def isSquareD (d : Dim3) : Bool := d.x = d.y
/-- MatrixBase.h:16-18 -/
def isFlatD (d : Dim3) : Bool := d.z = 1
/-- MatrixBase.h:20-22 -/
def isRowD (d : Dim3) : Bool := isFlatD d && d.x = 1
/-- MatrixBase.h:24-26 -/
def isColumnD (d : Dim3) : Bool := isFlatD d && d.y = 1

/-- MatrixBase.h:28-30 `size()`: the `int` product converted to `size_t`. -/
def sizeD (d : Dim3) : Res Nat := do
  let n ← d.volume
  .ok ((n % 18446744073709551616).toNat)

/-- SimpleMatrix.h:39 default constructor: `dim_` is all zero, `values_` empty. -/
def empty : Matrix α := ⟨0, []⟩

/-- SimpleMatrix.tpp:21-25: constructor from dimensions and an initial value. -/
def ofDim (d : Dim3) (v : α) : Res (Matrix α) := do
  let n ← vecSize d
  .ok ⟨d, List.replicate n v⟩

/-- `values_[n]` (SimpleMatrix.h:89-90 `operator[]`). -/
def flat (M : Matrix α) (n : Nat) : Res α := Res.ofOption M.vals[n]?

/-- `values_[n] = v`. -/
def setFlat (M : Matrix α) (n : Nat) (v : α) : Res (Matrix α) :=
  if n < M.vals.length then .ok ⟨M.dim, M.vals.set n v⟩ else .ub

/-- SimpleMatrix.tpp:141-159 `operator()`, read. -/
def read (M : Matrix α) (i : Dim3) : Res α := M.flat (getIndex M.dim i)

/-- SimpleMatrix.tpp:141-159 `operator()`, write through the returned reference. -/
def write (M : Matrix α) (i : Dim3) (v : α) : Res (Matrix α) := M.setFlat (getIndex M.dim i) v

/-- SimpleMatrix.tpp:78 `(*this)(row, col, layer) = *val++`: the state is the matrix and the values not yet
consumed; running past the end of `v` is undefined behaviour. -/
def putNext (row col layer : Nat) (s : Matrix α × List α) : Res (Matrix α × List α) :=
  match s.2 with
  | [] => .ub
  | a :: rest => do
    let M' ← s.1.write ⟨(row : Int), (col : Int), (layer : Int)⟩ a
    .ok (M', rest)

/-- SimpleMatrix.tpp:71-85 `setEntries`: the three nested loops (layer, row, col) with `uint` counters compared
with `int` bounds (the bound is converted to `unsigned`). -/
def setEntries (M : Matrix α) (v : List α) : Res (Matrix α) :=
  if v.length = M.vals.length then do
    let r ← (List.range (u32 M.dim.z)).foldlM (fun s layer =>
      (List.range (u32 M.dim.x)).foldlM (fun s row =>
        (List.range (u32 M.dim.y)).foldlM (fun s col => putNext row col layer s) s) s) (M, v)
    .ok r.1
  else .throw .matrixSize

/-- SimpleMatrix.tpp:38-44: constructor from dimensions and values. `values_(size())` then `setEntries`. -/
def ofVals [Zero α] (d : Dim3) (v : List α) : Res (Matrix α) := do
  let M ← ofDim d 0
  M.setEntries v

/-- SimpleMatrix.tpp:51-58 `operator=(std::vector<T>&&)`. -/
def assignVec (M : Matrix α) (v : List α) : Res (Matrix α) :=
  if v.length = M.vals.length then .ok ⟨M.dim, v⟩ else .throw .matrixSize

/-- `std::vector::resize(n, fill)`. -/
def vecResize (l : List α) (n : Nat) (v : α) : List α := l.take n ++ List.replicate (n - l.length) v

/-- SimpleMatrix.tpp:111-115 `resize`. -/
def resize (M : Matrix α) (d : Dim3) (zero : α) : Res (Matrix α) := do
  let n ← vecSize d
  .ok ⟨d, vecResize M.vals n zero⟩

/-- SimpleMatrix.tpp:117-125 `reshape`: both products are `int` products. -/
def reshape (M : Matrix α) (d : Dim3) : Res (Matrix α) := do
  let a ← d.volume
  let b ← M.dim.volume
  if a ≠ b then .throw .matrixTransform else .ok ⟨d, M.vals⟩

/-- SimpleMatrix.tpp:60-68 `operator=(const SimpleMatrix<Other>&)`: resize to the `int` product, then
`std::copy` of the other vector (writing past the end is undefined behaviour). -/
def assignConvert (M : Matrix α) (cast : β → α) (zero : α) (N : Matrix β) : Res (Matrix α) := do
  let n ← vecSize N.dim
  let v := vecResize M.vals n zero
  if N.vals.length ≤ v.length then .ok ⟨N.dim, N.vals.map cast ++ v.drop N.vals.length⟩ else .ub

/-- SimpleMatrix.h:42,60: copy. -/
def copy (M : Matrix α) : Matrix α := M

/-- SimpleMatrix.h:45,63 with dim.h:33-46: defaulted move; the vector becomes empty, the `Dim` is zeroed.
Returns (destination, source afterwards). -/
def move (M : Matrix α) : Matrix α × Matrix α := (⟨(Dim3.move M.dim).1, M.vals⟩, ⟨(Dim3.move M.dim).2, []⟩)

/-- SimpleMatrix.h:63 with dim.h:42-46: `M = std::move(M)`. What a `std::vector` holds after being moved to itself is unspecified:
`left`. -/
def selfMove (M : Matrix α) (left : List α) : Matrix α := ⟨Dim3.selfMoveAssign M.dim, left⟩

end Matrix

/-- A matrix-like right-hand side: any class derived from `MatrixBase` (MatrixBase.h:7) with
`operator()(dim3)` and iterators. `get` is `operator()(idx)`; `deref` is `*it` (MatrixIterator.h:32-37), which
for a `SimpleMatrix` goes through `scalar_idx_` and for everything else through `operator()`. -/
structure MExpr (α : Type) where
  dim : Dim3
  get : Dim3 → Res α
  deref : Iter → Res α := fun it => get it.idx

/-- A `SimpleMatrix` used as an operand. -/
def Matrix.expr {α : Type} (M : Matrix α) : MExpr α := ⟨M.dim, M.read, fun it => M.flat it.scalar⟩

/-- SubMatrixView.h:105-107: `start_` and (base class) `dim_`. The parent matrix (`mat_ptr_`) is passed
explicitly to the operations. -/
structure View where
  start : Dim3
  dim : Dim3
  deriving DecidableEq, Repr

namespace View
variable {α : Type}

/-- `start + dim` in `int`; overflow is undefined behaviour. -/
def endOf (start dim : Dim3) : Res Dim3 := do
  let x ← chk (start.x + dim.x)
  let y ← chk (start.y + dim.y)
  let z ← chk (start.z + dim.z)
  .ok ⟨x, y, z⟩

/-- The condition of SubMatrixView.h:37-39 and :52-54. -/
def exceeds (e parent : Dim3) : Bool := e.x > parent.x || e.y > parent.y || e.z > parent.z

/-- SubMatrixView.h:33-46: view onto a matrix of dimensions `parent`. -/
def create (parent start dim : Dim3) : Res View := do
  let e ← endOf start dim
  if exceeds e parent then .throw .matrixSize else .ok ⟨start, dim⟩

/-- SubMatrixView.h:48-61: view onto a view; first the delegated check against the matrix, then the check
against the outer view. -/
def sub (parent : Dim3) (v : View) (start dim : Dim3) : Res View := do
  let o ← endOf v.start start
  let w ← create parent o dim
  let e ← endOf start dim
  if exceeds e v.dim then .throw .matrixSize else .ok w

/-- SimpleMatrix.tpp:176-179,186-189 `slices` of a matrix. -/
def slices (parent : Dim3) (idx num : Int) : Res View :=
  create parent ⟨0, 0, idx⟩ ⟨parent.x, parent.y, num⟩

/-- SimpleMatrix.tpp:181-184,191-194 `slice` of a matrix. -/
def slice (parent : Dim3) (idx : Int) : Res View := slices parent idx 1

/-- SubMatrixView.tpp:53-56 `slices` of a view. -/
def subSlices (parent : Dim3) (v : View) (idx num : Int) : Res View :=
  sub parent v ⟨0, 0, idx⟩ ⟨v.dim.x, v.dim.y, num⟩

/-- SubMatrixView.tpp:58-61 `slice` of a view. -/
def subSlice (parent : Dim3) (v : View) (idx : Int) : Res View := subSlices parent v idx 1

/-- SubMatrixView.tpp:13-21,33-41 `operator()`, read. -/
def read (v : View) (M : Matrix α) (i : Dim3) : Res α := M.read (v.start + i)

/-- SubMatrixView.tpp:33-41 `operator()`, write. -/
def write (v : View) (M : Matrix α) (i : Dim3) (a : α) : Res (Matrix α) := M.write (v.start + i) a

/-- SubMatrixView.tpp:23-31,43-51 `at`. -/
def readAt (v : View) (M : Matrix α) (i : Dim3) : Res α :=
  if i.x ≥ v.dim.x || i.y ≥ v.dim.y || i.z ≥ v.dim.z then .throw .outOfRange else v.read M i

/-- A view used as an operand. -/
def expr (v : View) (M : Matrix α) : MExpr α := { dim := v.dim, get := v.read M }

end View

namespace Matrix
variable {α β : Type}

/-- SimpleMatrix.tpp:27-35: construction from a matrix-like object, entries converted by `cast`
(`static_cast`). The output iterator runs in lockstep with the input iterator (same dimensions), so it is at
the same scalar index. -/
def ofExpr [Zero β] (cast : α → β) (e : MExpr α) : Res (Matrix β) := do
  let n ← vecSize e.dim
  forRange e.dim (fun (M : Matrix β) it => do
    let v ← e.deref it
    M.setFlat it.scalar (cast v)) ⟨e.dim, List.replicate n 0⟩

/-- SimpleMatrix.tpp:87-95: assignment from a matrix-like object of dimensions `d`. The expression may refer
to the target itself, so its reader gets the current target (with the new `dim_` and resized `values_`). -/
def assignExpr [Zero α] (M : Matrix α) (d : Dim3) (deref : Matrix α → Iter → Res α) : Res (Matrix α) := do
  let n ← vecSize d
  copyRange d (Iter.fin d) (fun (M : Matrix α) it => do
    let v ← deref M it
    M.setFlat it.scalar v) ⟨d, vecResize M.vals n 0⟩

/-- MatrixMath.h:519-527 `checkSize`. -/
def checkSize (a b : Dim3) : Res Unit := if a ≠ b then .throw .matrixSize else .ok ()

/-- MatrixMath.h:58-65,73-80,88-95,103-110: `M op= other` on a `SimpleMatrix`; `other` may read the target. -/
def opAssign (op : α → β → α) (M : Matrix α) (d : Dim3) (get : Matrix α → Dim3 → Res β) : Res (Matrix α) := do
  checkSize M.dim d
  forRange M.dim (fun (M : Matrix α) it => do
    let b ← get M it.idx
    let a ← M.flat it.scalar
    M.setFlat it.scalar (op a b)) M

/-- MatrixMath.h:52-56,67-71,82-86,97-101: `M op= scalar`. The scalar is taken by reference, so it may be an
entry of the target and is read again at each step. -/
def opScalar (op : α → β → α) (M : Matrix α) (s : Matrix α → Res β) : Res (Matrix α) :=
  forRange M.dim (fun (M : Matrix α) it => do
    let a ← M.flat it.scalar
    let b ← s M
    M.setFlat it.scalar (op a b)) M

/-- MatrixMath.h:47-50 `modify`. -/
def modify (op : α → α) (M : Matrix α) : Res (Matrix α) :=
  forRange M.dim (fun (M : Matrix α) it => do
    let a ← M.flat it.scalar
    M.setFlat it.scalar (op a)) M

end Matrix

namespace View
variable {α β : Type}

/-- SubMatrixView.tpp:63-68 `view = scalar` (`std::fill`). -/
def fill (v : View) (M : Matrix α) (s : Matrix α → Res α) : Res (Matrix α) :=
  forRangeView v.dim (fun (M : Matrix α) it => do
    let a ← s M
    v.write M it.idx a) M

/-- SubMatrixView.tpp:70-83 `view = M2` (`std::copy`), `last` being the end iterator of the right-hand side. -/
def assign (v : View) (M : Matrix α) (d : Dim3) (last : Iter) (deref : Matrix α → Iter → Res α) :
    Res (Matrix α) := do
  Matrix.checkSize v.dim d
  copyRange d last (fun (M : Matrix α) it => do
    let b ← deref M it
    v.write M it.idx b) M

/-- MatrixMath.h:58-65 …: `view op= other`. -/
def opAssign (op : α → β → α) (v : View) (M : Matrix α) (d : Dim3) (get : Matrix α → Dim3 → Res β) :
    Res (Matrix α) := do
  Matrix.checkSize v.dim d
  forRangeView v.dim (fun (M : Matrix α) it => do
    let b ← get M it.idx
    let a ← v.read M it.idx
    v.write M it.idx (op a b)) M

/-- MatrixMath.h:52-56 …: `view op= scalar`. -/
def opScalar (op : α → β → α) (v : View) (M : Matrix α) (s : Matrix α → Res β) : Res (Matrix α) :=
  forRangeView v.dim (fun (M : Matrix α) it => do
    let a ← v.read M it.idx
    let b ← s M
    v.write M it.idx (op a b)) M

end View
end Cnn

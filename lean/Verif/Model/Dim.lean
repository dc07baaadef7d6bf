import Verif.Model.Res
/-!
# `Dim<3>` and `DimIterator<3>` (include/cnn_from_scratch/Matrix/dim.h)
-/
namespace Cnn

/-- dim.h:9-18, `Dim<3>`: the union of `{x,y,z}` and `data[3]`. C++ `int` components are modelled
as `Int`; the places where an `int` computation on them may overflow check it (see `chk`). -/
@[ext] structure Dim3 where
  x : Int
  y : Int
  z : Int
  deriving DecidableEq, Repr

/-- dim.h:9-18 with N = 2 (`dim2`). The third array slot that `dim2` carries (`std::max(N,3)`) is never
written by `Dim(a,b)` and is not modelled; only `==` on `dim2` (never used by the code) would read it. -/
@[ext] structure Dim2 where
  x : Int
  y : Int
  deriving DecidableEq, Repr

/-- `n` is representable as a C++ `int`. -/
def I32 (n : Int) : Prop := -2147483648 ≤ n ∧ n ≤ 2147483647

instance (n : Int) : Decidable (I32 n) := by unfold I32; infer_instance

/-- Result of an `int` computation: signed overflow is undefined behaviour. -/
def chk (n : Int) : Res Int := if I32 n then .ok n else .ub

/-- Conversion of an `int` to `unsigned` (32 bits). -/
def u32 (n : Int) : Nat := (n % 4294967296).toNat

/-- Conversion of an `int` to `size_t` (64 bits). -/
def u64 (n : Int) : Nat := (n % 18446744073709551616).toNat

namespace Dim3

/-- dim.h:21-23 `Dim(int val)`: all components equal. -/
def fill (v : Int) : Dim3 := ⟨v, v, v⟩

/-- dim.h:21 default constructor `Dim(int val = 0)`. -/
instance : Zero Dim3 := ⟨fill 0⟩

/-- dim.h:68-74 `operator+` (overflow not checked here; the callers that pass user values check). -/
protected def add (a b : Dim3) : Dim3 := ⟨a.x + b.x, a.y + b.y, a.z + b.z⟩
instance : Add Dim3 := ⟨Dim3.add⟩

/-- dim.h:76-82 `operator-`. -/
protected def sub (a b : Dim3) : Dim3 := ⟨a.x - b.x, a.y - b.y, a.z - b.z⟩
instance : Sub Dim3 := ⟨Dim3.sub⟩

@[simp] theorem add_mk (a b c d e f : Int) : (⟨a, b, c⟩ + ⟨d, e, f⟩ : Dim3) = ⟨a + d, b + e, c + f⟩ := rfl
@[simp] theorem sub_mk (a b c d e f : Int) : (⟨a, b, c⟩ - ⟨d, e, f⟩ : Dim3) = ⟨a - d, b - e, c - f⟩ := rfl
@[simp] theorem add_x (a b : Dim3) : (a + b).x = a.x + b.x := rfl
@[simp] theorem add_y (a b : Dim3) : (a + b).y = a.y + b.y := rfl
@[simp] theorem add_z (a b : Dim3) : (a + b).z = a.z + b.z := rfl
@[simp] theorem sub_x (a b : Dim3) : (a - b).x = a.x - b.x := rfl
@[simp] theorem sub_y (a b : Dim3) : (a - b).y = a.y - b.y := rfl
@[simp] theorem sub_z (a b : Dim3) : (a - b).z = a.z - b.z := rfl

/-- MatrixBase.h:28-30 / SimpleMatrix.tpp:24,65,114: the product `dim.x*dim.y*dim.z` computed in `int`,
left to right. Overflow of either multiplication is undefined behaviour. -/
def volume (d : Dim3) : Res Int := do
  let xy ← chk (d.x * d.y)
  chk (xy * d.z)

/-- dim.h:92-100 `getFlatIdx` for N = 3 (`size_t` arithmetic, modulo 2^64). -/
def getFlatIdx (d i : Dim3) : Nat :=
  ((i.x * 1 + i.y * (1 * d.x) + i.z * (1 * d.x * d.y)) % 18446744073709551616).toNat

/-- dim.h:84-90 `Dim::size()` for N = 3 (`size_t` arithmetic, modulo 2^64). -/
def size64 (d : Dim3) : Nat := ((1 * d.x * d.y * d.z) % 18446744073709551616).toNat

end Dim3

/-- A C++ move of a `Dim` (dim.h:33-36 constructor, dim.h:42-46 assignment): the source is memset to 0.
Returns (destination, source afterwards). -/
def Dim3.move (src : Dim3) : Dim3 × Dim3 := (src, 0)

/-- dim.h:42-46: `d = std::move(d)` on one and the same object: first `*this = other` (no change), then the
memset clears the object itself. Returns the object afterwards. -/
def Dim3.selfMoveAssign (_d : Dim3) : Dim3 := 0

/-- dim.h:106-133 `DimIterator<3>` together with the `scalar_idx_` of `MatrixIterator`
(MatrixIterator.h:72-76). `scalar` exists in the code only when the parent is a `SimpleMatrix`;
carrying it for the other parents is harmless because nothing reads it there. -/
structure Iter where
  idx : Dim3
  dim : Dim3
  scalar : Nat
  deriving DecidableEq, Repr

/-- dim.h:116-125 `DimIterator<3>::operator++`, the loop over `i = 0,1,2` unrolled. -/
def Dim3.next (dim idx : Dim3) : Dim3 :=
  if idx.x + 1 < dim.x then ⟨idx.x + 1, idx.y, idx.z⟩
  else if idx.y + 1 < dim.y then ⟨0, idx.y + 1, idx.z⟩
  else ⟨0, 0, idx.z + 1⟩

/-- MatrixIterator.h:52-57 `operator++`. -/
def Iter.next (it : Iter) : Iter := ⟨it.dim.next it.idx, it.dim, it.scalar + 1⟩

/-- MatrixIterator.h:27-30: the constructor; the scalar index is an `int` expression converted to `size_t`. -/
def Iter.mk' (dim idx : Dim3) : Iter :=
  ⟨idx, dim, ((idx.z * dim.x * dim.y + idx.y * dim.x + idx.x) % 18446744073709551616).toNat⟩

/-- SimpleMatrix.h:97, MatrixMath.h:140 … `begin()`. -/
def Iter.beg (dim : Dim3) : Iter := Iter.mk' dim ⟨0, 0, 0⟩

/-- SimpleMatrix.h:98, MatrixMath.h:141 … `end()` of matrices and of lazy expressions. -/
def Iter.fin (dim : Dim3) : Iter := Iter.mk' dim ⟨0, 0, dim.z⟩

/-- SubMatrixView.h:93-96 `end()` of a view: the incremented last index. -/
def Iter.finView (dim : Dim3) : Iter := (Iter.mk' dim (dim - Dim3.fill 1)).next

/-- MatrixIterator.h:65-67, dim.h:127-129 `operator==` (same parent understood). -/
def Iter.same (a b : Iter) : Bool := a.idx = b.idx && a.dim = b.dim

/-- MatrixIterator.h:60-63 `operator-`. -/
def Iter.diff (a b : Iter) : Int :=
  let d := a.idx - b.idx
  d.z * a.dim.x * a.dim.y + d.y * a.dim.x + d.x

/-- An iterator loop `for (it = first; it != last; ++it) body`, as written in MatrixMath.h:61-63 and as
performed by `std::transform`, `for_each`, `fill`, `accumulate` in libstdc++.
`fuel` bounds the number of steps; running out of fuel before reaching `last` means the loop runs past
every element (an endless loop), modelled as `ub`. -/
def Iter.loop {σ : Type} (last : Iter) (body : σ → Iter → Res σ) : Nat → Iter → σ → Res σ
  | 0, it, s => if it.same last then .ok s else .ub
  | fuel + 1, it, s =>
    if it.same last then .ok s
    else body s it >>= fun s' => Iter.loop last body fuel it.next s'

/-- Number of steps the iterator needs from `begin` to `end`; see `forRange_eq_fold`, which proves that this
fuel is exactly what the loop consumes whenever `dim.z ≥ 0`. -/
def Iter.fuel (d : Dim3) : Nat := (max d.x 1).toNat * (max d.y 1).toNat * d.z.toNat

/-- The loop over a whole matrix or lazy expression. -/
def forRange {σ : Type} (d : Dim3) (body : σ → Iter → Res σ) (s : σ) : Res σ :=
  Iter.loop (Iter.fin d) body (Iter.fuel d) (Iter.beg d) s

/-- The loop over a whole view (its `end()` is computed differently). -/
def forRangeView {σ : Type} (d : Dim3) (body : σ → Iter → Res σ) (s : σ) : Res σ :=
  Iter.loop (Iter.finView d) body (Iter.fuel d) (Iter.beg d) s

/-- `std::copy` on random-access iterators (libstdc++): exactly `last - first` steps, none if negative. -/
def copyLoop {σ : Type} (body : σ → Iter → Res σ) : Nat → Iter → σ → Res σ
  | 0, _, s => .ok s
  | n + 1, it, s => body s it >>= fun s' => copyLoop body n it.next s'

def copyRange {σ : Type} (d : Dim3) (last : Iter) (body : σ → Iter → Res σ) (s : σ) : Res σ :=
  copyLoop body (last.diff (Iter.beg d)).toNat (Iter.beg d) s

end Cnn

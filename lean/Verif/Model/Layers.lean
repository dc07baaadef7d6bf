import Verif.Model.Expr
import Verif.Model.Float32
/-!
# The network layers (src/Layers/*.cpp, include/cnn_from_scratch/Layers/*.h)

Entries are of an arbitrary type `α` with the C++ `double` operations as parameters: the arithmetic operators through
type classes, everything else through `Num α`. Theorems about real analysis use `Num ℝ`; there rounding, infinities
and NaN are not modelled.

A layer method that changes the layer returns the new layer. Where a property speaks about the layer after an
exception, the result is a pair of outcome and new state.
-/
namespace Cnn

/-- The mathematical library functions and constants used by the layers. -/
structure Num (α : Type) where
  exp : α → α
  tanh : α → α
  sqrt : α → α
  log2 : α → α
  /-- conversion of a `size_t` -/
  ofNat : Nat → α
  /-- `<` -/
  lt : α → α → Bool
  /-- the constant `0.1f` (Activation.cpp:10) -/
  slopeF : α
  /-- the constant `0.1` (Activation.cpp:17) -/
  slopeD : α
  /-- the constant `eps` = `1e-5f` (ModelDescription.tpp:144) -/
  eps : α

/-- `std::max(a, b)`: `(a < b) ? b : a`. -/
def Num.max {α : Type} (N : Num α) (a b : α) : α := if N.lt a b then b else a

/-- Conversion to a 32-bit `int` (modulo 2^32). -/
def wrap32 (n : Int) : Int := (n + 2147483648) % 4294967296 - 2147483648

/-! ## Activation -/

/-- Activation.h:10-16 `ModelActivationFunction`. -/
inductive ActFn | relu | sigmoid | linear | tangent | leaky
  deriving DecidableEq, Repr

section
variable {α : Type} [Zero α] [One α] [Add α] [Sub α] [Mul α] [Div α] [Neg α]

/-- Activation.cpp:6-10 (the functions) and :20-28 (the table). -/
def ActFn.eval (N : Num α) : ActFn → α → α
  | .relu, v => if N.lt 0 v then v else 0
  | .sigmoid, v => 1 / (1 + N.exp (-v))
  | .linear, v => v
  | .tangent, v => N.tanh v
  | .leaky, v => N.max (N.slopeF * v) v

/-- Activation.cpp:13-17 (the gradient functions) and :31-39 (the table). -/
def ActFn.grad (N : Num α) : ActFn → α → α
  | .relu, v => if N.lt 0 v then 1 else 0
  | .sigmoid, v => ActFn.sigmoid.eval N v * (1 - ActFn.sigmoid.eval N v)
  | .linear, _ => 1
  | .tangent, v => 1 - ActFn.tangent.eval N v * ActFn.tangent.eval N v
  | .leaky, v => if N.lt 0 v then 1 else N.slopeD

/-- Activation.h:60-…: the enum value `activation_` and the two function pointers, which are set separately. -/
structure Activation where
  tag : ActFn
  fn : ActFn
  gradFn : ActFn
  deriving DecidableEq, Repr

namespace Activation

/-- Activation.cpp:44-48 constructor. -/
def new (f : ActFn) : Activation := ⟨f, f, f⟩

/-- Activation.cpp:60-62 `propagateForward`. -/
def forward (N : Num α) (A : Activation) (X : Matrix α) : Res (Matrix α) :=
  Matrix.ofExpr id (MExpr.un (A.fn.eval N) X.expr)

/-- Activation.cpp:67-69 `activationGradient`. -/
def gradient (N : Num α) (A : Activation) (Z : Matrix α) : Res (Matrix α) :=
  Matrix.ofExpr id (MExpr.un (A.gradFn.grad N) Z.expr)

/-- Activation.cpp:74-79 `propagateBackward` (the input is not used). -/
def backward (N : Num α) (A : Activation) (_X Z dLdZ : Matrix α) : Res (Matrix α) := do
  let G ← A.gradient N Z
  let E ← MExpr.bin (· * ·) dLdZ.expr G.expr
  Matrix.ofExpr id E

end Activation
end

/-! ## Softmax -/

/-- Softmax.h: `output_label_count_`, `true_label_idx_`, `knows_true_label_`. -/
structure Softmax where
  count : Nat
  trueLabel : Nat
  knows : Bool
  deriving DecidableEq, Repr

namespace Softmax
variable {α : Type} [Zero α] [One α] [Add α] [Sub α] [Mul α] [Div α]

/-- Softmax.cpp:8-10 constructor. -/
def new (count : Nat) : Softmax := ⟨count, 0, false⟩

/-- Softmax.cpp:22-25 `checkSize`. -/
def checkSize (S : Softmax) (X : Matrix α) : Res Bool :=
  if Matrix.isColumnD X.dim || Matrix.isRowD X.dim then do
    let n ← Matrix.sizeD X.dim
    .ok (n = S.count)
  else .ok false

/-- Softmax.cpp:30-39 `assignTrueLabel`: outcome and new state. -/
def assignTrueLabel (S : Softmax) (t : Nat) : Res Unit × Softmax :=
  if t ≥ S.count then (.throw .outOfRange, S) else (.ok (), { S with trueLabel := t, knows := true })

/-- Softmax.cpp:44-52 `softMax`. -/
def softMax (N : Num α) (X : Matrix α) : Res (Matrix α) := do
  let m ← MExpr.max N.lt X.expr
  let offset := MExpr.scal (· - m) X.expr
  let expX ← Matrix.ofExpr id (MExpr.un N.exp offset)
  let s ← expX.expr.sum
  Matrix.ofExpr id (MExpr.scal (· / s) expX.expr)

/-- Softmax.cpp:57-62 `propagateForward`. -/
def forward (N : Num α) (S : Softmax) (X : Matrix α) : Res (Matrix α) := do
  let ok ← S.checkSize X
  if ok then softMax N X else .throw .modelLayer

/-- Softmax.cpp:67-71 `getdLdX`. -/
def getdLdX (out : Matrix α) (t : Nat) : Res (Matrix α) := do
  let a ← out.flat t
  out.setFlat t (a - 1)

/-- Softmax.cpp:76-85 `propagateBackward` (input and incoming gradient are not used). -/
def backward (S : Softmax) (_X Z _dLdZ : Matrix α) : Res (Matrix α) :=
  if !S.knows then .throw .modelLayer else getdLdX Z S.trueLabel

end Softmax

/-- ModelDescription.tpp:142-153 `lossFcn` (conversion of the result to `float` not modelled). -/
def lossFcn {α : Type} [Zero α] [One α] [Add α] [Mul α] [Neg α] (N : Num α) (probs : Matrix α) (t : Nat) : Res α := do
  let p ← probs.flat t
  .ok (N.max (-1 * N.log2 (p + N.eps)) 0)

/-! ## Pooling -/

/-- Pooling.h:10-14. -/
inductive PoolType | max | min | avg
  deriving DecidableEq, Repr

/-- Pooling.h:79-90. -/
structure Pooling where
  dim : Dim2
  stride : Dim2
  type : PoolType
  indices : List (Matrix Dim3)
  deriving DecidableEq, Repr

namespace Pooling

/-- Pooling.cpp:5-11 constructor. -/
def new (dim stride : Dim2) (type : PoolType) : Pooling := ⟨dim, stride, type, [Matrix.empty]⟩

/-- Pooling.cpp:23-25 `checkSize` (`uint32_t` against `int`: compared as unsigned). -/
def checkSize {α : Type} (P : Pooling) (X : Matrix α) : Bool :=
  u32 X.dim.x ≥ u32 P.dim.x && u32 X.dim.y ≥ u32 P.dim.y

/-- Pooling.cpp:30-32 `setBatchSize`. -/
def setBatchSize (P : Pooling) (n : Nat) : Pooling := { P with indices := Matrix.vecResize P.indices n Matrix.empty }

/-- Pooling.cpp:38,39: `int size = std::ceil((n - d + 1.0f)/s)`. Division by zero gives an infinity or NaN whose
conversion to `int` is undefined. -/
def outLen (n d s : Int) : Res Int := do
  let m ← chk (n - d)
  match F32.div (F32.add (F32.ofInt m) ⟨1, 1⟩) (F32.ofInt s) with
  | none => .ub
  | some q => chk q.ceil

/-- Pooling.cpp:37-42 `outputSize`. -/
def outputSize (P : Pooling) (d : Dim3) : Res Dim3 := do
  let x ← outLen d.x P.dim.x P.stride.x
  let y ← outLen d.y P.dim.y P.stride.y
  .ok ⟨x, y, d.z⟩

/-- Pooling.cpp:55,108 `pool_size`. -/
def window (P : Pooling) : Dim3 := ⟨P.dim.x, P.dim.y, 1⟩

/-- Pooling.cpp:59,111: the corner of the window belonging to an output index. -/
def corner (P : Pooling) (o : Dim3) : Res Dim3 := do
  let x ← chk (o.x * P.stride.x)
  let y ← chk (o.y * P.stride.y)
  .ok ⟨x, y, o.z⟩

variable {α : Type} [Zero α] [Add α] [Div α]

/-- Pooling.cpp:56-85: the body of the loop over the output. -/
def forwardStep (N : Num α) (P : Pooling) (X : Matrix α) (s : Matrix α × Matrix Dim3) (it : Iter) :
    Res (Matrix α × Matrix Dim3) := do
  let inIdx ← P.corner it.idx
  let v ← View.create X.dim inIdx P.window
  match P.type with
  | .min => do
    let m ← MExpr.minIndex N.lt (v.expr X)
    let ind ← s.2.write it.idx (inIdx + m)
    let a ← X.read (inIdx + m)
    let out ← s.1.write it.idx a
    .ok (out, ind)
  | .max => do
    let m ← MExpr.maxIndex N.lt (v.expr X)
    let ind ← s.2.write it.idx (inIdx + m)
    let a ← X.read (inIdx + m)
    let out ← s.1.write it.idx a
    .ok (out, ind)
  | .avg => do
    let a ← MExpr.mean N.ofNat (v.expr X)
    let out ← s.1.write it.idx a
    .ok (out, s.2)

/-- Pooling.cpp:47-87 `propagateForward`: the output and the layer with the recorded indices of slot `b`. -/
def forward (N : Num α) (P : Pooling) (X : Matrix α) (b : Nat) : Res (Matrix α × Pooling) := do
  let od ← P.outputSize X.dim
  let out ← Matrix.ofDim od 0
  let ind ← Res.ofOption P.indices[b]?
  let ind ← ind.resize od 0
  let r ← forRange od (P.forwardStep N X) (out, ind)
  .ok (r.1, { P with indices := P.indices.set b r.2 })

/-- Pooling.cpp:92-119 `getdLdX`. -/
def getdLdX (N : Num α) (P : Pooling) (X dLdY : Matrix α) (b : Nat) : Res (Matrix α) := do
  let dLdx ← Matrix.ofDim X.dim 0
  let ind ← Res.ofOption P.indices[b]?
  match P.type with
  | .min | .max =>
    forRange ind.dim (fun (D : Matrix α) it => do
      let p ← ind.flat it.scalar
      let g ← dLdY.read it.idx
      let a ← D.read p
      D.write p (a + g)) dLdx
  | .avg =>
    forRange dLdY.dim (fun (D : Matrix α) it => do
      let inIdx ← P.corner it.idx
      let v ← View.create D.dim inIdx P.window
      let g ← dLdY.flat it.scalar
      v.opScalar (· + ·) D (fun _ => .ok (g / N.ofNat (u64 (P.dim.x * P.dim.y))))) dLdx

/-- Pooling.cpp:124-129 `propagateBackward`. -/
def backward (N : Num α) (P : Pooling) (X _Z dLdY : Matrix α) (b : Nat) : Res (Matrix α) := P.getdLdX N X dLdY b

end Pooling

/-! ## What Kernel and ConnectedLayer share -/

section
variable {α : Type} [Zero α] [Add α] [Sub α] [Mul α] [Div α]

/-- `for (double& w : M) w = <next random number>` (Kernel.cpp:16-21, ConnectedLayer.cpp:58-63); the draws are an
arbitrary sequence, `off` the number of draws made before. -/
def Matrix.fillDraws (M : Matrix α) (draws : Nat → α) (off : Nat) : Res (Matrix α) :=
  forRange M.dim (fun (M : Matrix α) it => M.setFlat it.scalar (draws (off + it.scalar))) M

/-- `M /= l2Norm(M)` (Kernel.cpp:24-25, ConnectedLayer.cpp:66-67). The norm is a temporary. -/
def Matrix.normalise (N : Num α) (M : Matrix α) : Res (Matrix α) := do
  let n ← MExpr.l2Norm N.sqrt M.expr
  M.opScalar (· / ·) (fun _ => .ok n)

/-- Kernel.cpp:16-25, ConnectedLayer.cpp:58-67: random values, then normalisation. -/
def initParams (N : Num α) (draws : Nat → α) (W B : Matrix α) : Res (Matrix α × Matrix α) := do
  let W ← W.fillDraws draws 0
  let B ← B.fillDraws draws W.vals.length
  let W ← W.normalise N
  let B ← B.normalise N
  .ok (W, B)

/-- Kernel.cpp:49-66 and ConnectedLayer.cpp:27-44 `applyBatch` (the same code): new weights and biases. In C++ an
empty batch divides 0 by 0. -/
def applyGrads (N : Num α) (lr : α) (W B : Matrix α) (wG bG : List (Matrix α)) : Res (Matrix α × Matrix α) := do
  let aw ← Matrix.ofDim W.dim 0
  let ab ← Matrix.ofDim B.dim 0
  let s ← (List.range wG.length).foldlM (fun (s : Matrix α × Matrix α) (i : Nat) => do
    let g ← Res.ofOption wG[i]?
    let aw ← s.1.opAssign (· + ·) g.dim (fun _ => g.read)
    let h ← Res.ofOption bG[i]?
    let ab ← s.2.opAssign (· + ·) h.dim (fun _ => h.read)
    .ok (aw, ab)) (aw, ab)
  let aw ← s.1.opScalar (· / ·) (fun _ => .ok (N.ofNat wG.length))
  let ab ← s.2.opScalar (· / ·) (fun _ => .ok (N.ofNat bG.length))
  let W ← W.opAssign (· - ·) aw.dim (fun _ => (MExpr.scal (lr * ·) aw.expr).get)
  let B ← B.opAssign (· - ·) ab.dim (fun _ => (MExpr.scal (lr * ·) ab.expr).get)
  .ok (W, B)

/-- Kernel.cpp:38-44, ConnectedLayer.cpp:16-22 `setBatchSize`: that many default-constructed matrices. -/
def emptyGrads (n : Nat) : List (Matrix α) := List.replicate n Matrix.empty

end

/-! ## Kernel (convolution layer) -/

/-- Kernel.h:104-114 and ModelLayer.h:11-12. `numFilters` and `stride` are `unsigned`. -/
structure Kernel (α : Type) where
  dim : Dim3
  numFilters : Nat
  stride : Nat
  weights : Matrix α
  biases : Matrix α
  wGrads : List (Matrix α)
  bGrads : List (Matrix α)
  deriving DecidableEq, Repr

namespace Kernel
variable {α : Type} [Zero α] [Add α] [Sub α] [Mul α] [Div α]

/-- Kernel.cpp:8-26 constructor with ModelLayer.h:16-19. -/
def new (N : Num α) (draws : Nat → α) (dim : Dim3) (n stride : Nat) : Res (Kernel α) := do
  let W ← Matrix.ofDim ⟨dim.x, dim.y, wrap32 (dim.z * n)⟩ 0
  let B ← Matrix.ofDim ⟨wrap32 n, 1, 1⟩ 0
  let r ← initParams N draws W B
  .ok ⟨dim, n, stride, r.1, r.2, [], []⟩

/-- Kernel.cpp:38-44. -/
def setBatchSize (K : Kernel α) (n : Nat) : Kernel α := { K with wGrads := emptyGrads n, bGrads := emptyGrads n }

/-- Kernel.cpp:49-66. -/
def applyBatch (N : Num α) (lr : α) (K : Kernel α) : Res (Kernel α) := do
  let r ← applyGrads N lr K.weights K.biases K.wGrads K.bGrads
  .ok { K with weights := r.1, biases := r.2 }

/-- Kernel.cpp:71-82 `padInput` of a view `v` of `M`. -/
def padInput (v : View) (M : Matrix α) (f : Dim3) : Res (Matrix α) := do
  let px ← chk (v.dim.x + 2 * (f.x - 1))
  let py ← chk (v.dim.y + 2 * (f.y - 1))
  let padded ← Matrix.ofDim ⟨px, py, v.dim.z⟩ 0
  let t ← View.create padded.dim ⟨f.x - 1, f.y - 1, 0⟩ v.dim
  t.assign padded v.dim (Iter.finView v.dim) (fun _ => (v.expr M).deref)

/-- Kernel.cpp:87-89 `checkSize`: `uint32_t` against `int`. -/
def checkSize (K : Kernel α) (X : Matrix α) : Bool := u32 X.dim.z = u32 K.dim.z

/-- Kernel.cpp:94-100 `outputSize`: `uint32_t` arithmetic converted to `int`; the stride is not used. -/
def outputSize (K : Kernel α) (X : Matrix α) : Dim3 :=
  ⟨wrap32 (X.dim.x - K.dim.x + 1), wrap32 (X.dim.y - K.dim.y + 1), wrap32 K.numFilters⟩

/-- Kernel.cpp:115-120: the body of the inner loop (channel `j` of filter `i`). -/
def forwardChannel (K : Kernel α) (X : Matrix α) (filter : View) (i : Nat) (out : Matrix α) (j : Nat) :
    Res (Matrix α) := do
  let W ← View.subSlice K.weights.dim filter j
  let I ← View.slice X.dim j
  let o ← View.slice out.dim i
  let E ← MExpr.convolve (I.expr X) (W.expr K.weights) ⟨wrap32 K.stride, wrap32 K.stride⟩
  o.opAssign (· + ·) out E.dim (fun _ => E.get)

/-- Kernel.cpp:113-122: the body of the outer loop (filter `i`). -/
def forwardFilter (K : Kernel α) (X : Matrix α) (out : Matrix α) (i : Nat) : Res (Matrix α) := do
  let filter ← View.slices K.weights.dim (wrap32 (i * K.dim.z)) K.dim.z
  let out ← (List.range (u64 K.dim.z)).foldlM (K.forwardChannel X filter i) out
  let o ← View.slice out.dim i
  let b ← K.biases.flat i
  o.opScalar (· + ·) out (fun _ => .ok b)

/-- Kernel.cpp:105-126 `propagateForward`; nothing but the result is changed. -/
def forward (K : Kernel α) (X : Matrix α) : Res (Matrix α) :=
  if !K.checkSize X then .throw .modelLayer
  else do
    let out ← Matrix.ofDim (K.outputSize X) 0
    (List.range K.numFilters).foldlM (K.forwardFilter X) out

/-- Kernel.cpp:131-155 `getdLdW`. -/
def getdLdW (K : Kernel α) (X dLdY : Matrix α) : Res (Matrix α) := do
  let dLdW ← Matrix.ofDim K.weights.dim 0
  (List.range K.numFilters).foldlM (fun (dLdW : Matrix α) (f : Nat) => do
    let og ← View.slice dLdY.dim f
    let wg ← View.slices dLdW.dim (f * K.dim.z) K.dim.z
    (List.range K.dim.z.toNat).foldlM (fun (dLdW : Matrix α) (c : Nat) => do
      let ic ← View.slice X.dim c
      let t ← View.subSlice dLdW.dim wg c
      let E ← MExpr.convolve (ic.expr X) (og.expr dLdY) ⟨1, 1⟩
      t.assign dLdW E.dim (Iter.fin E.dim) (fun _ => E.deref)) dLdW) dLdW

/-- Kernel.cpp:174-183: the gradient of one filter. -/
def filterGradient (K : Kernel α) (X dLdY : Matrix α) (f : Nat) : Res (Matrix α) := do
  let filter ← View.slices K.weights.dim (f * K.dim.z) K.dim.z
  let og ← View.slice dLdY.dim f
  let fg ← Matrix.ofDim X.dim 0
  (List.range K.dim.z.toNat).foldlM (fun (fg : Matrix α) (c : Nat) => do
    let fc ← View.subSlice K.weights.dim filter c
    let rg ← MExpr.rotate 2 (og.expr dLdY)
    let pf ← padInput fc K.weights og.dim
    let t ← View.slice fg.dim c
    let E ← MExpr.convolve pf.expr rg ⟨1, 1⟩
    t.assign fg E.dim (Iter.fin E.dim) (fun _ => E.deref)) fg

/-- Kernel.cpp:160-189 `getdLdX`. -/
def getdLdX (K : Kernel α) (X dLdY : Matrix α) : Res (Matrix α) := do
  let dLdX ← Matrix.ofDim X.dim 0
  (List.range K.numFilters).foldlM (fun (dLdX : Matrix α) (f : Nat) => do
    let fg ← K.filterGradient X dLdY f
    Matrix.checkSize dLdX.dim fg.dim
    dLdX.assignExpr dLdX.dim (fun M it => do
      let a ← M.read it.idx
      let b ← fg.read it.idx
      .ok (a + b))) dLdX

/-- Kernel.cpp:194-203 `getdLdB`. -/
def getdLdB (K : Kernel α) (dLdY : Matrix α) : Res (Matrix α) := do
  let dLdB ← Matrix.ofDim K.biases.dim 0
  (List.range K.numFilters).foldlM (fun (dLdB : Matrix α) (f : Nat) => do
    let v ← View.slice dLdY.dim f
    let s ← (v.expr dLdY).sum
    dLdB.setFlat f s) dLdB

/-- `v[i] = a` on a `std::vector`. -/
def _root_.Cnn.setSlot {β : Type} (l : List β) (i : Nat) (a : β) : Res (List β) :=
  if i < l.length then .ok (l.set i a) else .ub

/-- Kernel.cpp:208-218 `propagateBackward`. -/
def backward (K : Kernel α) (X _Z dLdZ : Matrix α) (b : Nat) (last : Bool) : Res (Matrix α × Kernel α) := do
  let gw ← K.getdLdW X dLdZ
  let wG ← setSlot K.wGrads b gw
  let gb ← K.getdLdB dLdZ
  let bG ← setSlot K.bGrads b gb
  let r ← if last then .ok Matrix.empty else K.getdLdX X dLdZ
  .ok (r, { K with wGrads := wG, bGrads := bG })

end Kernel

/-! ## ConnectedLayer -/

/-- The order in which the compiler evaluates the arguments at MatrixMath.h:248-249: the dimensions before or after a
temporary operand is moved into its parameter. -/
inductive ArgOrder | dimsFirst | operandsFirst
  deriving DecidableEq, Repr

/-- How a temporary operand is seen by the dimension argument. -/
def ArgOrder.pass : ArgOrder → MExpr.Pass
  | .dimsFirst => .movedLate
  | .operandsFirst => .movedEarly

/-- ConnectedLayer.h:92-98 and ModelLayer.h:11-12. -/
structure Connected (α : Type) where
  weights : Matrix α
  biases : Matrix α
  inputDim : Dim3
  initialized : Bool
  wGrads : List (Matrix α)
  bGrads : List (Matrix α)
  deriving DecidableEq, Repr

namespace Connected
variable {α : Type} [Zero α] [Add α] [Sub α] [Mul α] [Div α]

/-- ModelLayer.h:16-19 with the default `weights_dim`. -/
def new (n : Nat) : Res (Connected α) := do
  let W ← Matrix.ofDim 0 0
  let B ← Matrix.ofDim ⟨wrap32 n, 1, 1⟩ 0
  .ok ⟨W, B, 0, false, [], []⟩

/-- ConnectedLayer.cpp:16-22. -/
def setBatchSize (L : Connected α) (n : Nat) : Connected α := { L with wGrads := emptyGrads n, bGrads := emptyGrads n }

/-- ConnectedLayer.cpp:27-44. -/
def applyBatch (N : Num α) (lr : α) (L : Connected α) : Res (Connected α) := do
  let r ← applyGrads N lr L.weights L.biases L.wGrads L.bGrads
  .ok { L with weights := r.1, biases := r.2 }

/-- ConnectedLayer.cpp:51 `expected_size` (`size_t` converted to `int`). -/
def expected (L : Connected α) (X : Matrix α) : Res Dim3 := do
  let a ← Matrix.sizeD L.biases.dim
  let b ← Matrix.sizeD X.dim
  .ok ⟨wrap32 a, wrap32 b, 1⟩

/-- ConnectedLayer.cpp:57-67. -/
def initWeights (N : Num α) (draws : Nat → α) (L : Connected α) (e : Dim3) : Res (Matrix α × Matrix α) := do
  let W ← Matrix.ofDim e 0
  initParams N draws W L.biases

/-- ConnectedLayer.cpp:49-75 `checkSize`: outcome and new state. The only possible exception while initialising is the
allocation of the weights; by then `initialized_` and `input_dim_` are set. -/
def checkSize (N : Num α) (draws : Nat → α) (L : Connected α) (X : Matrix α) : Res Bool × Connected α :=
  match L.expected X with
  | .ok e =>
    if L.initialized then (.ok (L.weights.dim = e), L)
    else
      let L' := { L with initialized := true, inputDim := X.dim }
      match L.initWeights N draws e with
      | .ok (W, B) => (.ok true, { L' with weights := W, biases := B })
      | .throw x => (.throw x, L')
      | .ub => (.ub, L')
      | .abort => (.abort, L')
  | .throw x => (.throw x, L)
  | .ub => (.ub, L)
  | .abort => (.abort, L)

/-- ConnectedLayer.cpp:86-90: the computation after the size check. -/
def compute (L : Connected α) (X : Matrix α) : Res (Matrix α) := do
  let n ← Matrix.sizeD X.dim
  let v ← X.reshape ⟨wrap32 n, 1, 1⟩
  let P ← MExpr.matMul L.weights.expr v.expr
  let E ← MExpr.bin (· + ·) P L.biases.expr
  Matrix.ofExpr id E

/-- ConnectedLayer.cpp:80-91 `propagateForward`: outcome and new state. -/
def forward (N : Num α) (draws : Nat → α) (L : Connected α) (X : Matrix α) : Res (Matrix α) × Connected α :=
  let (r, L') := L.checkSize N draws X
  (do let ok ← r; if ok then L'.compute X else .throw .modelLayer, L')

/-- ConnectedLayer.cpp:96-101 `getdLdW`; the transposed matrix is a temporary operand of `matrixMultiply`. -/
def getdLdW (o : ArgOrder) (X dLdY : Matrix α) : Res (Matrix α) := do
  let n ← Matrix.sizeD X.dim
  let flatX ← X.reshape ⟨wrap32 n, 1, 1⟩
  let E ← MExpr.matMulP .kept o.pass dLdY.expr (MExpr.transpose flatX.expr)
  Matrix.ofExpr id E

/-- ConnectedLayer.cpp:106-111 `getdLdX`; the transposed matrix is a temporary operand of `matrixMultiply`. -/
def getdLdX (o : ArgOrder) (L : Connected α) (dLdY : Matrix α) : Res (Matrix α) := do
  let E ← MExpr.matMulP o.pass .kept (MExpr.transpose L.weights.expr) dLdY.expr
  let M ← Matrix.ofExpr id E
  M.reshape L.inputDim

/-- ConnectedLayer.cpp:123-135 `propagateBackward` (116-118: the bias gradient is the incoming gradient). -/
def backward (o : ArgOrder) (L : Connected α) (X _Z dLdZ : Matrix α) (b : Nat) (last : Bool) :
    Res (Matrix α × Connected α) := do
  let gw ← getdLdW o X dLdZ
  let wG ← setSlot L.wGrads b gw
  let bG ← setSlot L.bGrads b dLdZ
  let r ← if last then .ok Matrix.empty else L.getdLdX o dLdZ
  .ok (r, { L with wGrads := wG, bGrads := bG })

end Connected
end Cnn

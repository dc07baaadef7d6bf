import Verif.Model.Serialize
/-!
# Forward and backward propagation through a model (src/ModelDescription.tpp:142-213)
-/
namespace Cnn

/-- What the program does not determine: the arithmetic, the random numbers drawn by layer `i` on first use
(ConnectedLayer.cpp:58-63), the rounding of a `double` to a `float`, the order of argument evaluation. -/
structure Env (α : Type) where
  num : Num α
  draws : Nat → Nat → α
  toFloat : α → α
  order : ArgOrder

section
variable {α : Type} [Zero α] [One α] [Add α] [Sub α] [Mul α] [Div α] [Neg α]

namespace Body

/-- The virtual `propagateForward` (ModelLayer.h:29) on batch slot `b`: the output and the layer afterwards. -/
def forward (N : Num α) (draws : Nat → α) (X : Matrix α) (b : Nat) : Body α → Res (Matrix α × Body α)
  | .kernel K => do
    let Y ← K.forward X
    .ok (Y, .kernel K)
  | .pooling P => do
    let r ← P.forward N X b
    .ok (r.1, .pooling r.2)
  | .connected L => do
    let Y ← (L.forward N draws X).1
    .ok (Y, .connected (L.forward N draws X).2)
  | .activation A => do
    let Y ← A.forward N X
    .ok (Y, .activation A)
  | .softmax S => do
    let Y ← S.forward N X
    .ok (Y, .softmax S)

/-- The virtual `propagateBackward` (ModelLayer.h:30-36) on batch slot `b`. -/
def backward (N : Num α) (o : ArgOrder) (X Z dLdZ : Matrix α) (b : Nat) (last : Bool) : Body α → Res (Matrix α × Body α)
  | .kernel K => do
    let r ← K.backward X Z dLdZ b last
    .ok (r.1, .kernel r.2)
  | .pooling P => do
    let D ← P.backward N X Z dLdZ b
    .ok (D, .pooling P)
  | .connected L => do
    let r ← L.backward o X Z dLdZ b last
    .ok (r.1, .connected r.2)
  | .activation A => do
    let D ← A.backward N X Z dLdZ
    .ok (D, .activation A)
  | .softmax S => do
    let D ← S.backward X Z dLdZ
    .ok (D, .softmax S)

/-- The layers that override `setBatchSize`: Kernel.h, Pooling.h, ConnectedLayer.h (ModelLayer.h:27 does nothing). -/
def slotted : Body α → Bool
  | .kernel _ => true
  | .pooling _ => true
  | .connected _ => true
  | _ => false

/-- The virtual `setBatchSize` (ModelLayer.h:27). -/
def setBatchSize (n : Nat) : Body α → Body α
  | .kernel K => .kernel (K.setBatchSize n)
  | .pooling P => .pooling (P.setBatchSize n)
  | .connected L => .connected (L.setBatchSize n)
  | .activation A => .activation A
  | .softmax S => .softmax S

/-- The virtual `applyBatch` (ModelLayer.h:28). -/
def applyBatch (N : Num α) (lr : α) : Body α → Res (Body α)
  | .kernel K => do
    let K ← K.applyBatch N lr
    .ok (.kernel K)
  | .pooling P => .ok (.pooling P)
  | .connected L => do
    let L ← L.applyBatch N lr
    .ok (.connected L)
  | .activation A => .ok (.activation A)
  | .softmax S => .ok (.softmax S)

end Body

/-- ModelDescription.h:16-24 `ModelResults`; `trueIdx` is indeterminate until `assignLoss` sets it. -/
structure Results (α : Type) where
  trueLabel : Option (List Char)
  labelIdx : Nat
  trueIdx : Option Nat
  loss : α
  confidence : α
  inputs : List (Matrix α)

namespace Model

/-- Replace the state of layer `i`. -/
def setBody (M : Model α) (i : Nat) (b : Body α) : Model α :=
  { M with layers := M.layers.modify i (fun l => { l with body := b }) }

/-- ModelDescription.tpp:171: layer `i` propagates forward. -/
def forwardLayer (E : Env α) (M : Model α) (b i : Nat) (X : Matrix α) : Res (Matrix α × Model α) := do
  let l ← Res.ofOption M.layers[i]?
  let r ← l.body.forward E.num (E.draws i) X b
  .ok (r.1, M.setBody i r.2)

/-- ModelDescription.tpp:165,172: the record of a layer's input or output, a `SimpleMatrix<float>`. -/
def record (E : Env α) (A : Matrix α) : Res (Matrix α) := Matrix.ofExpr E.toFloat A.expr

/-- ModelDescription.tpp:160-165: the input converted to `double` and its record. -/
def forwardBegin (E : Env α) (X : Matrix α) : Res (Matrix α × List (Matrix α)) := do
  let A ← Matrix.ofExpr id X.expr
  let R ← record E A
  .ok (A, [R])

/-- ModelDescription.tpp:168-173: one iteration of the loop over the layers. The state is the active data, the records and
the model. -/
def forwardStep (E : Env α) (b : Nat) (s : (Matrix α × List (Matrix α)) × Model α) (i : Nat) :
    Res ((Matrix α × List (Matrix α)) × Model α) := do
  let r ← forwardLayer E s.2 b i s.1.1
  let R ← record E r.1
  .ok ((r.1, s.1.2 ++ [R]), r.2)

/-- ModelDescription.tpp:175-180: the check of the size and the choice of the label. -/
def forwardEnd (E : Env α) (M : Model α) (A : Matrix α) (rec : List (Matrix α)) : Res (Results α) := do
  let n ← Matrix.sizeD A.dim
  if n ≠ M.labels.length then .abort
  else do
    let i ← MExpr.maxIndexFlat E.num.lt A.expr
    let c ← A.flat i
    .ok ⟨none, i, none, -1, E.toFloat c, rec⟩

/-- ModelDescription.tpp:155-183 `forwardPropagation`. -/
def forwardPropagation (E : Env α) (M : Model α) (X : Matrix α) (b : Nat) : Res (Results α × Model α) := do
  let s ← forwardBegin E X
  let s ← (List.range M.layers.length).foldlM (forwardStep E b) (s, M)
  let r ← forwardEnd E s.2 s.1.1 s.1.2
  .ok (r, s.2)

/-- ModelDescription.tpp:186: `std::distance(begin, std::find(begin, end, label))`. -/
def labelIndex (M : Model α) (label : List Char) : Nat := M.labels.findIdx (· == label)

/-- ModelDescription.tpp:185-190 `assignLoss`; `back()` of an empty vector is undefined. The record is converted to `double`
for `lossFcn`, whose result is a `float`. -/
def assignLoss (E : Env α) (M : Model α) (r : Results α) (label : List Char) : Res (Results α) := do
  let out ← Res.ofOption r.inputs.getLast?
  let out ← Matrix.ofExpr id out.expr
  let loss ← lossFcn E.num out (M.labelIndex label)
  .ok { r with trueLabel := some label, trueIdx := some (M.labelIndex label), loss := E.toFloat loss }

/-- ModelDescription.tpp:195-201: loss, then the label is handed to the output layer (the only class whose type is `OUTPUT`
is `Softmax`). -/
def backwardBegin (E : Env α) (M : Model α) (r : Results α) (label : List Char) : Res (Results α × Model α) := do
  let r ← M.assignLoss E r label
  let l ← Res.ofOption M.layers.getLast?
  match l.body with
  | .softmax S =>
    let s := S.assignTrueLabel (M.labelIndex label)
    s.1 >>= fun _ => .ok (r, M.setBody (M.layers.length - 1) (.softmax s.2))
  | _ => .abort

/-- `vector::at`. -/
def recordAt (r : Results α) (i : Nat) : Res (Matrix α) :=
  match r.inputs[i]? with
  | some A => .ok A
  | none => .throw .outOfRange

/-- ModelDescription.tpp:208-210: the body of the loop for layer `i`; the records are converted to `double`. -/
def backwardStep (E : Env α) (r : Results α) (b : Nat) (s : Matrix α × Model α) (i : Nat) : Res (Matrix α × Model α) := do
  let X ← recordAt r i
  let Z ← recordAt r (i + 1)
  let l ← Res.ofOption s.2.layers[i]?
  let X ← Matrix.ofExpr id X.expr
  let Z ← Matrix.ofExpr id Z.expr
  let q ← l.body.backward E.num E.order X Z s.1 b (i = 0)
  .ok (q.1, s.2.setBody i q.2)

/-- ModelDescription.tpp:192-213 `backwardsPropagation`. -/
def backwardsPropagation (E : Env α) (M : Model α) (r : Results α) (label : List Char) (b : Nat) : Res (Results α × Model α) := do
  let q ← M.backwardBegin E r label
  let s ← (List.range M.layers.length).reverse.foldlM (backwardStep E q.1 b) (Matrix.empty, q.2)
  .ok (q.1, s.2)

/-- ModelDescription.tpp:284-286. -/
def setBatchSize (n : Nat) (M : Model α) : Model α :=
  { M with layers := M.layers.map (fun l => { l with body := l.body.setBatchSize n }) }

/-- ModelDescription.tpp:284-286: the batch size is converted to `size_t`, and a `std::vector` with as many elements as a negative number gives
cannot be made (`std::length_error`). Only convolution, pooling and fully connected layers keep vectors of that size. -/
def room (batch : Int) (M : Model α) : Res Unit :=
  if batch < 0 ∧ M.layers.any (fun l => l.body.slotted) then .throw .length else .ok ()

/-- ModelDescription.tpp:264-266. -/
def applyBatch (N : Num α) (lr : α) (M : Model α) : Res (Model α) := do
  let ls ← M.layers.mapM (fun l => do
    let b ← l.body.applyBatch N lr
    .ok { l with body := b })
  .ok { M with layers := ls }

end Model
end
end Cnn

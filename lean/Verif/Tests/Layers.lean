import Verif.Model.Serialize
import Verif.Tests.Matrix
/-!
# The project's own unit tests of layers, run in the model

Transcription of test/ForwardPassTest.cpp, test/BackwardPassTest.cpp and (the activations that need no exponential)
test/ModelLayerTest.cpp; tests of the model, not proofs of properties. Numbers are exact rationals; the tests' own
tolerance `1e-5` is kept.
-/
namespace Cnn.Tests
open MExpr

/-- Arithmetic on rationals; the transcendental functions are not used by these tests (`sqrt` only scales the initial
weights, which the tests overwrite). -/
def rat : Num ℚ where
  exp := id
  tanh := id
  sqrt := fun q => q + 1
  log2 := id
  ofNat := fun n => n
  lt := fun a b => a < b
  slopeF := 1 / 10
  slopeD := 1 / 10
  eps := 1 / 100000

/-- `matrixEqual(A, B, 1e-5)`. -/
def close (A B : Matrix ℚ) : Res Bool := matrixEqual (fun a b : ℚ => |a - b| ≤ 1 / 100000) A.expr B.expr

/-- `*std::dynamic_pointer_cast<Kernel>(model.layers[0])` after `model.addKernel(d, n)` on a new model. -/
def firstKernel (d : Dim3) (n : Nat) : Res (Kernel ℚ) := do
  let M ← Model.new.addKernel rat (fun k => k) d n
  match M.layers with
  | [⟨_, .kernel K⟩] => .ok K
  | _ => .ub

/-- The kernel with the test's weights and biases put in by `setEntries`. -/
def kernelWith (d : Dim3) (n : Nat) (w b : List ℚ) : Res (Kernel ℚ) := do
  let K ← firstKernel d n
  let W ← K.weights.setEntries w
  let B ← K.biases.setEntries b
  .ok { K with weights := W, biases := B }

/-- A test of `Kernel::propagateForward`: the sizes of the parameters, then the output. -/
def kernelTest (d : Dim3) (n : Nat) (wd bd : Dim3) (w b : List ℚ) (xd : Dim3) (x : List ℚ) (yd : Dim3) (y : List ℚ) : Res Bool := do
  let K ← kernelWith d n w b
  let X ← Matrix.ofVals xd x
  let out ← K.forward X
  let e ← Matrix.ofVals yd y
  all [.ok (K.weights.dim = wd && K.biases.dim = bd), close out e]

/-- The single-channel input of the tests. -/
def plane : List ℚ := [1, 2, 3, 4, 5, 6, 7, 8, 2, 4, 6, 8, 1, 3, 5, 7]

/-- The second channel of the tests. -/
def plane2 : List ℚ := [5, 7, 2, 6, 65, 7, 0, 2/10, 2/10, 5/10, 3/10, -4, -62/10, 0, 23/10, 7]

def filter1 : List ℚ := [1, -2, 0, 4, 2, 1, 0, 2/10, 5]

def filter2 : List ℚ := [-1, 2, 0, -4, -2, -1, 0, -2/10, -5]

/-- ForwardPassTest.cpp:5-38 -/
example : kernelTest ⟨3, 3, 1⟩ 1 ⟨3, 3, 1⟩ ⟨1, 1, 1⟩ filter1 [1] ⟨4, 4, 1⟩ plane ⟨2, 2, 1⟩
    [668/10 + 1, 832/10 + 1, 406/10 + 1, 64 + 1] = .ok true := by decide +kernel

/-- ForwardPassTest.cpp:40-83 -/
example : kernelTest ⟨3, 3, 1⟩ 2 ⟨3, 3, 2⟩ ⟨2, 1, 1⟩ (filter1 ++ filter2) [1, -1] ⟨4, 4, 1⟩ plane ⟨2, 2, 2⟩
    [668/10 + 1, 832/10 + 1, 406/10 + 1, 64 + 1, -668/10 - 1, -832/10 - 1, -406/10 - 1, -64 - 1] = .ok true := by
  decide +kernel

/-- ForwardPassTest.cpp:85-130 -/
example : kernelTest ⟨3, 3, 2⟩ 1 ⟨3, 3, 2⟩ ⟨1, 1, 1⟩ (filter1 ++ filter2) [1] ⟨4, 4, 2⟩ (plane ++ plane2) ⟨2, 2, 1⟩
    [668/10 - 2666/10 + 1, 832/10 - 1126/100 + 1, 406/10 - 646/10 + 1, 64 - 4106/100 + 1] = .ok true := by
  decide +kernel

/-- A test of `Pooling::propagateForward` with the exact `matrixEqual`. -/
def poolTest (d s : Dim2) (t : PoolType) (xd : Dim3) (x : List ℚ) (yd : Dim3) (y : List ℚ) : Res Bool := do
  let X ← Matrix.ofVals xd x
  let e ← Matrix.ofVals yd y
  match (Model.addPooling (α := ℚ) Model.new d s t).layers with
  | [⟨_, .pooling P⟩] => do
    let r ← P.forward rat X 0
    matrixEqual isEq e.expr r.1.expr
  | _ => .ub

/-- ForwardPassTest.cpp:132-153 -/
example : poolTest ⟨2, 2⟩ ⟨1, 1⟩ .max ⟨4, 4, 1⟩ plane ⟨3, 3, 1⟩ [6, 7, 8, 6, 7, 8, 4, 6, 8] = .ok true := by decide +kernel

/-- ForwardPassTest.cpp:155-185 -/
example : poolTest ⟨2, 2⟩ ⟨1, 1⟩ .min ⟨4, 4, 2⟩ (plane ++ plane2) ⟨3, 3, 2⟩
    [1, 2, 3, 2, 4, 6, 1, 3, 5, 5, 0, 0, 2/10, 0, -4, -62/10, 0, -4] = .ok true := by decide +kernel

/-- ForwardPassTest.cpp:187-207 -/
example : poolTest ⟨2, 2⟩ ⟨2, 2⟩ .avg ⟨4, 4, 1⟩ plane ⟨2, 2, 1⟩ [35/10, 55/10, 25/10, 65/10] = .ok true := by decide +kernel

/-- BackwardPassTest.cpp:7-27: the input and the loss gradient of the fixture. -/
def fixtureIn : Res (Matrix ℚ) := Matrix.ofVals ⟨3, 3, 1⟩ [1, 2, 3, 4, -5, 6, 7, 8, 9/10]

def fixtureGrad : Res (Matrix ℚ) := Matrix.ofVals ⟨2, 2, 1⟩ [-1/10, 3/10, 4/10, 6/10]

def fixtureKernel : Res (Kernel ℚ) := kernelWith ⟨2, 2, 1⟩ 1 [1/10, 3, -3, 9] [1]

/-- Sum of products `A(i, j, 0) * B(k, l, 0)` over a list of index pairs. -/
def sumOf (A B : Matrix ℚ) (l : List ((Int × Int) × (Int × Int))) : Res ℚ :=
  l.foldlM (fun s p => do
    let a ← A.read ⟨p.1.1, p.1.2, 0⟩
    let b ← B.read ⟨p.2.1, p.2.2, 0⟩
    .ok (s + a * b)) 0

/-- The expected matrix, entry by entry in rows. -/
def expected (d : Dim3) (A B : Matrix ℚ) (l : List (List ((Int × Int) × (Int × Int)))) : Res (Matrix ℚ) := do
  let v ← l.mapM (sumOf A B)
  Matrix.ofVals d v

/-- BackwardPassTest.cpp:36-66 -/
def weightGradient : Res Bool := do
  let K ← fixtureKernel
  let X ← fixtureIn
  let G ← fixtureGrad
  let W ← K.getdLdW X G
  let e ← expected ⟨2, 2, 1⟩ G X
    [[((0, 0), (0, 0)), ((0, 1), (0, 1)), ((1, 0), (1, 0)), ((1, 1), (1, 1))],
     [((0, 0), (0, 1)), ((0, 1), (0, 2)), ((1, 0), (1, 1)), ((1, 1), (1, 2))],
     [((0, 0), (1, 0)), ((0, 1), (1, 1)), ((1, 0), (2, 0)), ((1, 1), (2, 1))],
     [((0, 0), (1, 1)), ((0, 1), (1, 2)), ((1, 0), (2, 1)), ((1, 1), (2, 2))]]
  close W e

example : weightGradient = .ok true := by decide +kernel

/-- BackwardPassTest.cpp:68-93 -/
def inputGradient : Res Bool := do
  let K ← fixtureKernel
  let X ← fixtureIn
  let G ← fixtureGrad
  let D ← K.getdLdX X G
  let e ← expected ⟨3, 3, 1⟩ G K.weights
    [[((0, 0), (0, 0))],
     [((0, 0), (0, 1)), ((0, 1), (0, 0))],
     [((0, 1), (0, 1))],
     [((0, 0), (1, 0)), ((1, 0), (0, 0))],
     [((0, 0), (1, 1)), ((0, 1), (1, 0)), ((1, 0), (0, 1)), ((1, 1), (0, 0))],
     [((0, 1), (1, 1)), ((1, 1), (0, 1))],
     [((1, 0), (1, 0))],
     [((1, 0), (1, 1)), ((1, 1), (1, 0))],
     [((1, 1), (1, 1))]]
  close D e

example : inputGradient = .ok true := by decide +kernel

/-- A 5 x 5 matrix with entries in [-1, 1], zero among them, as in ModelLayerTest.cpp:5-17 (there the entries are
random). -/
def sample : Res (Matrix ℚ) := Matrix.ofVals ⟨5, 5, 1⟩ ((List.range 25).map fun n => ((n * 7 % 25 : Nat) - 12 : ℚ) / 12)

/-- ModelLayerTest.cpp:23-42, 68-78 and 84-105, 133-143: value and gradient of an activation at every entry. -/
def activationTest (f : ActFn) (value slope : ℚ → ℚ) : Res Bool := do
  let M ← sample
  let A := Activation.new f
  let V ← A.forward rat M
  let G ← A.gradient rat M
  all [agree (fun x y => value x = y) M V, agree (fun x y => slope x = y) M G, .ok (G.dim = M.dim)]

example : activationTest .linear id (fun _ => 1) = .ok true := by decide +kernel
example : activationTest .relu (fun x => if x > 0 then x else 0) (fun x => if x ≤ 0 then 0 else 1) = .ok true := by
  decide +kernel
example : activationTest .leaky (fun x => if x > 0 then x else 1/10 * x) (fun x => if x ≤ 0 then 1/10 else 1) = .ok true := by
  decide +kernel

end Cnn.Tests

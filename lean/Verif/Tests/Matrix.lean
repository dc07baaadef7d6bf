import Verif.Model.Expr
/-!
# The project's own unit tests of matrices, run in the model

Each definition below transcribes one test of test/MatrixTest.cpp into calls of model functions; the `example` after
it evaluates the test in the kernel. These are tests of the model (does it do what the authors of the code expect?),
not proofs of properties. `float` entries are taken as exact rationals: all values in these tests are small integers
or decimals with no rounding involved in the comparisons.
-/
namespace Cnn.Tests
open MExpr

/-- Loop `for (auto it = M.begin(); it != M.end(); it++)` with an expectation in it. -/
def each {α : Type} (M : Matrix α) (p : Iter → Res Bool) : Res Bool :=
  forRange M.dim (fun ok it => do
    let b ← p it
    .ok (ok && b)) true

/-- All of a list of expectations. -/
def all (l : List (Res Bool)) : Res Bool :=
  l.foldlM (fun ok r => do
    let b ← r
    .ok (ok && b)) true

/-- Three nested loops over given bounds. -/
def grid (x y z : Nat) (p : Int → Int → Int → Res Bool) : Res Bool :=
  all ((List.range x).flatMap fun (i : Nat) => (List.range y).flatMap fun (j : Nat) => (List.range z).map fun (k : Nat) => p i j k)

/-- Two matrices agree at every index of the first. -/
def agree {α β : Type} (eq : α → β → Bool) (A : Matrix α) (B : Matrix β) : Res Bool :=
  each A fun it => do
    let a ← A.expr.deref it
    let b ← B.read it.idx
    .ok (eq a b)

/-- Every entry has a given value. -/
def every {α : Type} [DecidableEq α] (A : Matrix α) (v : α) : Res Bool :=
  each A fun it => do
    let a ← A.expr.deref it
    .ok (a = v)

def isEq {α : Type} [DecidableEq α] (a b : α) : Bool := a = b

/-- The entries 1 … 18 used by many tests. -/
def upTo18 {α : Type} [NatCast α] : List α := (List.range 18).map fun n => ((n + 1 : Nat) : α)

/-- MatrixTest.cpp:5-13 -/
def defaultConstructor : Res Bool := do
  let n ← Matrix.sizeD (Matrix.empty : Matrix ℚ).dim
  .ok (n = 0)

example : defaultConstructor = .ok true := by decide +kernel

/-- MatrixTest.cpp:15-43 -/
def dimConstructor : Res Bool := do
  let M1 ← Matrix.ofDim ⟨2, 5, 3⟩ (0 : Int)
  let M2 ← Matrix.ofDim ⟨0, 8, 1⟩ (0 : Int)
  let M3 ← Matrix.ofDim ⟨0, 0, 0⟩ (0 : Int)
  let M4 ← Matrix.ofDim ⟨2, 4, 13⟩ (0 : ℚ)
  let n1 ← Matrix.sizeD M1.dim
  let n2 ← Matrix.sizeD M2.dim
  let n3 ← Matrix.sizeD M3.dim
  let n4 ← Matrix.sizeD M4.dim
  .ok (n1 = 30 && M1.dim = ⟨2, 5, 3⟩ && n2 = 0 && M2.dim = ⟨0, 8, 1⟩ && n3 = 0 && M3.dim = ⟨0, 0, 0⟩ && n4 = 104
    && M4.dim = ⟨2, 4, 13⟩)

example : dimConstructor = .ok true := by decide +kernel

/-- MatrixTest.cpp:45-55 -/
def defaultVal : Res Bool := do
  let M1 ← Matrix.ofDim ⟨2, 5, 3⟩ (0 : Int)
  let M2 ← Matrix.ofDim ⟨5, 1, 1⟩ (1 : Int)
  all [every M1 0, every M2 1]

example : defaultVal = .ok true := by decide +kernel

/-- MatrixTest.cpp:57-77 -/
def valueConstructor : Res Bool := do
  let M1 ← Matrix.ofVals (α := ℚ) ⟨3, 3, 2⟩ upTo18
  grid 3 3 2 fun row col channel => do
    let v ← M1.read ⟨row, col, channel⟩
    .ok (v = ((9 * channel + 3 * row + col + 1 : Int) : ℚ))

example : valueConstructor = .ok true := by decide +kernel

example : Matrix.ofVals (α := ℚ) ⟨3, 3, 2⟩ [0, 2, 4, 6, 8] = .throw .matrixSize := by decide +kernel

/-- MatrixTest.cpp:79-93 -/
def copyConstructor : Res Bool := do
  let M1 ← Matrix.ofVals (α := ℚ) ⟨3, 3, 2⟩ upTo18
  let M2 := M1.copy
  agree isEq M1 M2

example : copyConstructor = .ok true := by decide +kernel

/-- MatrixTest.cpp:95-111; the last expectation is that the sizes *differ*. -/
def moveConstructor : Res Bool := do
  let M1 ← Matrix.ofVals (α := ℚ) ⟨3, 3, 2⟩ upTo18
  let M2 := M1.copy
  let (M3, M1) := M1.move
  let a ← Matrix.sizeD M3.dim
  let b ← Matrix.sizeD M1.dim
  all [agree isEq M2 M3, .ok (a ≠ b)]

example : moveConstructor = .ok true := by decide +kernel

/-- MatrixTest.cpp:113-128: "moving" from a matrix of another entry type binds to the converting constructor and
leaves the source alone. -/
def moveConstructorDiffType : Res Bool := do
  let M1 ← Matrix.ofVals (α := ℚ) ⟨3, 3, 2⟩ upTo18
  let M2 ← Matrix.ofExpr truncQ M1.expr
  let a ← Matrix.sizeD M1.dim
  let b ← Matrix.sizeD M2.dim
  all [agree (fun (x : ℚ) (y : Int) => x = y) M1 M2, .ok (a = b)]

example : moveConstructorDiffType = .ok true := by decide +kernel

/-- MatrixTest.cpp:130-144 (`EXPECT_EQ` of an `int` and an `unsigned` converts the `int`). -/
def typeConversion : Res Bool := do
  let M ← Matrix.ofDim ⟨4, 2, 3⟩ (3 : Int)
  let M2 ← Matrix.ofExpr (fun n => (u32 n : Nat)) M.expr
  let M' ← M.write ⟨0, 0, 0⟩ (-5)
  let M3 ← Matrix.ofExpr (fun n => (u32 n : Nat)) M'.expr
  let a ← M'.read ⟨0, 0, 0⟩
  let b ← M2.read ⟨0, 0, 0⟩
  let c ← M3.read ⟨0, 0, 0⟩
  all [agree (fun (x : Int) (y : Nat) => u32 x = y) M M2, .ok (u32 a ≠ b), .ok (c = 4294967291),
    each M' fun it => if it.idx = ⟨0, 0, 0⟩ then .ok true else do
      let x ← M'.expr.deref it
      let y ← M2.read it.idx
      .ok (u32 x = y)]

example : typeConversion = .ok true := by decide +kernel

/-- MatrixTest.cpp:146-164 and :166-184 (`subMatCopy` is the construction of a matrix from the view,
SimpleMatrix.tpp:196-199). -/
def subMatView : Res Bool := do
  let M ← Matrix.ofVals (α := Int) ⟨3, 3, 2⟩ upTo18
  let v ← View.create M.dim ⟨1, 1, 0⟩ ⟨2, 2, 2⟩
  let M2 ← Matrix.ofExpr id (v.expr M)
  let e ← Matrix.ofVals (α := Int) ⟨2, 2, 2⟩ [5, 6, 8, 9, 14, 15, 17, 18]
  matrixEqual isEq M2.expr e.expr

example : subMatView = .ok true := by decide +kernel

/-- MatrixTest.cpp:186-198 -/
def assignDefault : Res Bool := do
  let M1 ← Matrix.ofVals (α := Int) ⟨3, 2, 1⟩ [1, 2, 3, 4, 5, 6]
  let M2 := M1.copy
  agree isEq M1 M2

example : assignDefault = .ok true := by decide +kernel

/-- MatrixTest.cpp:200-216; the failed assignment leaves the matrix as it was. -/
def assignValue : Res Bool := do
  let M1 ← Matrix.ofVals (α := Int) ⟨3, 2, 1⟩ [1, 2, 3, 4, 5, 6]
  let M ← Matrix.ofDim ⟨3, 2, 1⟩ (0 : Int)
  let M2 ← M.assignVec [1, 3, 5, 2, 4, 6]
  all [.ok (M2.assignVec [1, 2, 3] = .throw .matrixSize), agree isEq M1 M2]

example : assignValue = .ok true := by decide +kernel

/-- MatrixTest.cpp:218-231 -/
def assignValueMatrix : Res Bool := do
  let M1 ← Matrix.ofVals (α := Int) ⟨3, 2, 1⟩ [1, 2, 3, 4, 5, 6]
  let M ← Matrix.ofDim ⟨3, 2, 1⟩ (0 : Int)
  let M2 ← M.setEntries [1, 2, 3, 4, 5, 6]
  agree isEq M1 M2

example : assignValueMatrix = .ok true := by decide +kernel

/-- MatrixTest.cpp:233-246 -/
def assignTypeConversion : Res Bool := do
  let M1 ← Matrix.ofVals (α := ℚ) ⟨3, 2, 1⟩ [1, 22/10, -3, 49/10, -53/10, 6255/1000]
  let M ← Matrix.ofDim ⟨3, 2, 1⟩ (0 : Int)
  let M2 ← M.assignConvert truncQ 0 M1
  all [agree (fun (x : ℚ) (y : Int) => truncQ x = y) M1 M2, .ok (M2.vals = [1, -3, -5, 2, 4, 6])]

example : assignTypeConversion = .ok true := by decide +kernel

/-- MatrixTest.cpp:248-262 -/
def assignTranspose : Res Bool := do
  let M1 ← Matrix.ofVals (α := ℚ) ⟨3, 2, 1⟩ [1, 22/10, -3, 49/10, -53/10, 6255/1000]
  let M2 ← Matrix.ofExpr id (transpose M1.expr)
  grid 3 2 1 fun i j k => do
    let a ← M1.read ⟨i, j, k⟩
    let b ← M2.read ⟨j, i, k⟩
    .ok (a = b)

example : assignTranspose = .ok true := by decide +kernel

/-- MatrixTest.cpp:264-284 -/
def transposeFat : Res Bool := do
  let M1 ← Matrix.ofVals (α := Int) ⟨3, 3, 2⟩ upTo18
  let M2 ← Matrix.ofExpr (fun n : Int => (n : ℚ)) (transpose M1.expr)
  grid 3 3 2 fun i j k => do
    let a ← M1.read ⟨i, j, k⟩
    let b ← M2.read ⟨j, i, k⟩
    .ok (a = b)

example : transposeFat = .ok true := by decide +kernel

/-- MatrixTest.cpp:286-291 -/
example : getIndex ⟨2, 3, 4⟩ ⟨1, 2, 3⟩ = 3*3*2 + 1*3 + 2 := by decide +kernel

/-- MatrixTest.cpp:293-304 -/
def writeSingle : Res Bool := do
  let M ← Matrix.ofDim ⟨5, 5, 2⟩ (0 : ℚ)
  let M ← M.write ⟨3, 2, 1⟩ 10
  each M fun it => do
    let v ← M.expr.deref it
    .ok (v = if it.idx = ⟨3, 2, 1⟩ then 10 else 0)

example : writeSingle = .ok true := by decide +kernel

/-- MatrixTest.cpp:306-310 -/
example : (do
    let M ← Matrix.ofDim ⟨5, 5, 2⟩ (0 : ℚ)
    let M ← M.write ⟨0, 2, 0⟩ 10
    M.read ⟨0, 2, 0⟩) = .ok 10 := by decide +kernel

/-- MatrixTest.cpp:312-337 -/
def writeRange : Res Bool := do
  let M ← Matrix.ofDim ⟨5, 5, 2⟩ (0 : ℚ)
  let v ← View.create M.dim ⟨0, 0, 0⟩ ⟨2, 3, 2⟩
  let M ← v.fill M fun _ => .ok 10
  let M2 ← Matrix.ofDim ⟨3, 3, 1⟩ (0 : Nat)
  let w ← View.create M2.dim ⟨1, 1, 0⟩ ⟨2, 2, 1⟩
  let M2 ← w.fill M2 fun _ => .ok 1
  all [grid 5 5 2 fun i j k => do
      let a ← M.read ⟨i, j, k⟩
      .ok (a = if i < 2 ∧ j < 3 ∧ k < 2 then 10 else 0),
    grid 3 3 1 fun i j k => do
      let a ← M2.read ⟨i, j, k⟩
      .ok (a = if 1 ≤ i ∧ 1 ≤ j then 1 else 0)]

example : writeRange = .ok true := by decide +kernel

/-- MatrixTest.cpp:339-356 -/
def readRange : Res Bool := do
  let M ← Matrix.ofDim ⟨5, 5, 2⟩ (0 : Int)
  let M ← (List.range 5).foldlM (fun (M : Matrix Int) (i : Nat) => (List.range 5).foldlM (fun (M : Matrix Int) (j : Nat) =>
    (List.range 2).foldlM (fun (M : Matrix Int) (k : Nat) => M.write ⟨i, j, k⟩ (i + 10 * j + 100 * k : Nat)) M) M) M
  let v ← View.create M.dim ⟨1, 2, 0⟩ ⟨3, 2, 1⟩
  let S ← Matrix.ofExpr id (v.expr M)
  all ([(0, 0, 21), (1, 0, 22), (2, 0, 23), (0, 1, 31), (1, 1, 32), (2, 1, 33)].map fun p => do
    let a ← S.read ⟨p.1, p.2.1, 0⟩
    .ok (a = p.2.2))

example : readRange = .ok true := by decide +kernel

/-- Square matrix of the arithmetic tests. -/
def nine (l : List ℚ) : Res (Matrix ℚ) := do
  let M ← Matrix.ofDim ⟨3, 3, 1⟩ (0 : ℚ)
  M.setEntries l

/-- MatrixTest.cpp:358-372 -/
def scalarAdd : Res Bool := do
  let M1 ← nine [1, 2, 3, 4, 5, 6, 7, 8, 9]
  let M2 ← Matrix.ofExpr id (scal (fun a : ℚ => a + 1) M1.expr)
  grid 3 3 1 fun i j k => do
    let a ← M2.read ⟨i, j, k⟩
    .ok (a = ((2 + 3 * i + j : Int) : ℚ))

example : scalarAdd = .ok true := by decide +kernel

/-- An element-wise operation of two matrices, assigned to a third one. -/
def elementwise (op : ℚ → ℚ → ℚ) (a b : List ℚ) : Res (Matrix ℚ) := do
  let A ← nine a
  let B ← nine b
  let e ← bin op A.expr B.expr
  Matrix.ofExpr id e

/-- MatrixTest.cpp:374-388 -/
example : (do every (← elementwise (· + ·) [1, 2, 3, 4, 5, 6, 7, 8, 9] [9, 8, 7, 6, 5, 4, 3, 2, 1]) 10) = .ok true := by
  decide +kernel

/-- MatrixTest.cpp:390-406 -/
example : (do every (← elementwise (· - ·) [2, 3, 4, 5, 6, 7, 8, 9, 10] [1, 2, 3, 4, 5, 6, 7, 8, 9]) 1) = .ok true := by
  decide +kernel

/-- MatrixTest.cpp:408-424 -/
example : (do every (← elementwise (· * ·) [2520, 1260, 840, 630, 504, 420, 360, 315, 280] [1, 2, 3, 4, 5, 6, 7, 8, 9]) 2520)
    = .ok true := by
  decide +kernel

/-- MatrixTest.cpp:426-442 -/
example : (do every (← elementwise (· / ·) [1, 2, 3, 4, 5, 6, 7, 8, 9] [1, 2, 3, 4, 5, 6, 7, 8, 9]) 1) = .ok true := by
  decide +kernel

/-- MatrixTest.cpp:444-456: the loop meets the entries in storage order. -/
def scalarModify : Res Bool := do
  let M1 ← nine [1, 4, 7, 2, 5, 8, 3, 6, 9]
  let M1 ← M1.opScalar (· + ·) fun _ => .ok (1 : ℚ)
  let r ← forRange M1.dim (fun (s : Bool × ℚ) it => do
    let v ← M1.expr.deref it
    .ok (s.1 && v = s.2, s.2 + 1)) (true, 2)
  .ok r.1

example : scalarModify = .ok true := by decide +kernel

/-- MatrixTest.cpp:458-477 -/
def rangeMatrixModify : Res Bool := do
  let M1 ← nine [1, 4, 7, 2, 5, 8, 3, 6, 9]
  let v ← View.create M1.dim ⟨0, 1, 0⟩ ⟨3, 2, 1⟩
  let B ← Matrix.ofVals (α := ℚ) ⟨3, 2, 1⟩ [6, 3, 5, 2, 4, 1]
  let M1 ← v.opAssign (· + ·) M1 B.dim fun _ => B.read
  let e ← nine [1, 10, 10, 2, 10, 10, 3, 10, 10]
  matrixEqual isEq M1.expr e.expr

example : rangeMatrixModify = .ok true := by decide +kernel

/-- MatrixTest.cpp:479-495 -/
def rangeScalarModify : Res Bool := do
  let M1 ← nine [1, 4, 7, 2, 5, 8, 3, 6, 9]
  let v ← View.create M1.dim ⟨0, 1, 0⟩ ⟨3, 2, 1⟩
  let M1 ← v.opScalar (· - ·) M1 fun _ => .ok (2 : ℚ)
  let e ← nine [1, 2, 5, 2, 3, 6, 3, 4, 7]
  matrixEqual isEq e.expr M1.expr

example : rangeScalarModify = .ok true := by decide +kernel

/-- MatrixTest.cpp:497-512; here the loop runs over the expression itself. -/
def matrixViewAdd : Res Bool := do
  let M1 ← Matrix.ofVals (α := ℚ) ⟨2, 2, 1⟩ [1, 2, 4, 5]
  let M2 ← nine [9, 8, 7, 6, 5, 4, 3, 2, 1]
  let v ← View.create M2.dim ⟨0, 0, 0⟩ ⟨2, 2, 1⟩
  let M3 ← bin (· + ·) M1.expr (v.expr M2)
  forRange M3.dim (fun ok it => do
    let a ← M3.deref it
    .ok (ok && a = (10 : ℚ))) true

example : matrixViewAdd = .ok true := by decide +kernel

/-- MatrixTest.cpp:514-529 -/
def matrixCompoundedAdd : Res Bool := do
  let M1 ← Matrix.ofVals (α := ℚ) ⟨2, 2, 1⟩ [1, 2, 4, 5]
  let M2 ← nine [9, 8, 7, 6, 5, 5, 3, 5, 5]
  let v ← View.create M2.dim ⟨0, 0, 0⟩ ⟨2, 2, 1⟩
  let w ← View.create M2.dim ⟨1, 1, 0⟩ ⟨2, 2, 1⟩
  let e ← bin (· + ·) M1.expr (v.expr M2)
  let e ← bin (· + ·) e (w.expr M2)
  let M3 ← Matrix.ofExpr id e
  every M3 15

example : matrixCompoundedAdd = .ok true := by decide +kernel

/-- MatrixTest.cpp:531-545 -/
def matrixCompoundedOperations : Res Bool := do
  let M1 ← Matrix.ofVals (α := ℚ) ⟨2, 2, 1⟩ [1, 2, 4, 5]
  let M2 ← nine [9, 8, 7, 6, 5, 5, 3, 5, 5]
  let w ← View.create M2.dim ⟨1, 1, 0⟩ ⟨2, 2, 1⟩
  let M3 ← Matrix.ofExpr id (w.expr M2)
  let v ← View.create M2.dim ⟨0, 0, 0⟩ ⟨2, 2, 1⟩
  let e ← bin (· + ·) M1.expr (v.expr M2)
  let e ← bin (· * ·) e (transpose M3.expr)
  let M4 ← Matrix.ofExpr id e
  every M4 50

example : matrixCompoundedOperations = .ok true := by decide +kernel

/-- A matrix product compared with the expected matrix. -/
def product (d e f : Dim3) (a b c : List Int) : Res Bool := do
  let A ← Matrix.ofVals d a
  let B ← Matrix.ofVals e b
  let P ← matMul A.expr B.expr
  let M3 ← Matrix.ofExpr id P
  let C ← Matrix.ofVals f c
  matrixEqual isEq M3.expr C.expr

/-- MatrixTest.cpp:547-567 -/
example : product ⟨3, 3, 1⟩ ⟨3, 3, 1⟩ ⟨3, 3, 1⟩ [1, 4, 7, 2, 5, 8, 3, 6, 9] [1, 2, 3, 1, 2, 3, 1, 2, 3]
    [12, 24, 36, 15, 30, 45, 18, 36, 54] = .ok true := by decide +kernel

/-- MatrixTest.cpp:569-588 (and :605-624 with entries of mixed types, which the model does not have). -/
example : product ⟨3, 2, 1⟩ ⟨2, 3, 1⟩ ⟨3, 3, 1⟩ [1, 4, 2, 5, 3, 6] [1, 2, 3, 1, 2, 3]
    [5, 10, 15, 7, 14, 21, 9, 18, 27] = .ok true := by decide +kernel

/-- MatrixTest.cpp:590-603: the product the other way round is refused. -/
example : product ⟨2, 3, 1⟩ ⟨2, 2, 1⟩ ⟨2, 2, 1⟩ [1, 2, 3, 1, 2, 3] [1, 4, 3, 6] [0, 0, 0, 0] = .throw .matrixSize := by
  decide +kernel

end Cnn.Tests

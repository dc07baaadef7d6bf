import Verif.Spec.Rounding
import Verif.Spec.Surrogate
import Verif.Spec.Sums
/-!
# Rounded gradients (C98)

How far the gradients that the program stores may be from the exact ones, which are written down here as formulas. An error
bound always has the form `(1 + u) ^ depth * (M + products * η) - m`: here `m` is the formula evaluated for the magnitudes of
the exact numbers, `M` for the largest magnitudes that the actual numbers may have.
-/
namespace Cnn

/-- The sum of those of the terms `0 … n-1` that satisfy `c`, added in this order. -/
def pickTo {α : Type} [Zero α] [Add α] (n : Nat) (c : Nat → Bool) (t : Nat → α) : α :=
  (List.range n).foldl (fun s k => if c k then s + t k else s) 0

/-- The constants of the conversion from `double` to `float`. -/
structure Conversion where
  u : ℝ
  η : ℝ
  Ω : ℝ

/-- What is assumed of the environment besides the arithmetic: numbers up to `q.Ω` are converted with these errors, and zero
exactly; the slope of LEAKY_RELU below 0 is the `double` next to 0.1; arguments are evaluated in the order of C38. -/
structure Env.Rounds {α : Type} [Zero α] [One α] [Add α] [Sub α] [Mul α] [Div α] [Neg α] (E : Env α) {p : Precision} (F : Floating E.num p)
    (q : Conversion) : Prop where
  toFloat : ∀ a, F.Fin a → |F.val a| ≤ q.Ω → F.Fin (E.toFloat a) ∧ |F.val (E.toFloat a) - F.val a| ≤ q.u * |F.val a| + q.η
  zero : F.Fin (E.toFloat 0) ∧ F.val (E.toFloat 0) = 0
  slope : F.Fin E.num.slopeD ∧ F.val E.num.slopeD = 3602879701896397 / 2 ^ 55
  order : E.order = .dimsFirst
  u0 : 0 ≤ q.u
  η0 : 0 ≤ q.η

/-- The error of a converted number that should be `x` and was off by at most `e`. -/
noncomputable def Conversion.err (q : Conversion) (x e : ℝ) : ℝ := e + (q.u * (|x| + e) + q.η)

/-- The layer object has a batch slot `b`; a fully connected layer that is not the first was given its size by an input of the
shape `s` (C38). -/
def Body.Slotted {α : Type} (b : Nat) (first : Bool) (s : Shape) : Body α → Prop
  | .kernel K => b < K.wGrads.length ∧ b < K.bGrads.length
  | .connected L => b < L.wGrads.length ∧ b < L.bGrads.length ∧ (first = true ∨ L.inputDim = dimN s.X s.Y s.Z)
  | _ => True

def SlottedAll {α : Type} (b : Nat) : Bool → Shape → List (Body α) → List NetLayer → Prop
  | first, s, B :: Bs, l :: ls => B.Slotted b first s ∧ SlottedAll b false (l.out s) Bs ls
  | _, _, _, _ => True

namespace Precision

/-- The bound: `k` roundings, `n` products, magnitudes up to `M` instead of `m`. -/
noncomputable def grown (p : Precision) (k n : Nat) (M m : ℝ) : ℝ := (1 + p.u) ^ k * (M + n * p.η) - m

/-- Nothing overflows. -/
def Room (p : Precision) (k n : Nat) (M : ℝ) : Prop := (1 + p.u) ^ k * (M + n * p.η) ≤ p.Ω

/-- The error of the slope of an activation function with input `x`, off by `e`, whose recorded output is off by `z`. At a RELU
or LEAKY_RELU the slope may be a wrong one if the output is too close to 0. -/
noncomputable def slopeErr (p : Precision) (x e z : ℝ) : ActFn → ℝ
  | .relu => if x ≤ -e ∨ z < x then 0 else 1
  | .leaky => if z < |actSpec .leaky x| then 0 else 1
  | .linear => 0
  | .sigmoid =>
    let y := Real.sigmoid (Real.sigmoid x)
    let δ := z / 4 + (3 * p.u + 2 * p.v + 3 * p.η)
    p.grown 1 1 ((y + δ) * (1 - y + p.grown 1 0 (1 - y + δ) (1 - y))) (y * (1 - y))
  | .tangent =>
    let y := |Real.tanh (Real.tanh x)|
    let δ := z + (p.v + p.η)
    p.grown 1 0 (1 - y * y + p.grown 1 1 ((y + δ) * (y + δ)) (y * y)) (1 - y * y)

/-- Nothing overflows in computing the slope. -/
def SlopeRoom (p : Precision) (x z : ℝ) : ActFn → Prop
  | .sigmoid =>
    let y := Real.sigmoid (Real.sigmoid x)
    let δ := z / 4 + (3 * p.u + 2 * p.v + 3 * p.η)
    2 + 2 * Real.exp (1 + z) ≤ p.Ω ∧ 1 - y + δ ≤ p.Ω ∧ (y + δ) * (1 - y + p.grown 1 0 (1 - y + δ) (1 - y)) ≤ p.Ω
  | .tangent =>
    let y := |Real.tanh (Real.tanh x)|
    let δ := z + (p.v + p.η)
    (y + δ) * (y + δ) ≤ p.Ω ∧ 1 - y * y + p.grown 1 1 ((y + δ) * (y + δ)) (y * y) ≤ p.Ω
  | _ => True

end Precision

namespace NetLayer

/-- Entry `(i,j)` lies in window `(a,c)` of a pooling layer. -/
def Inside (px py sx sy a c i j : Nat) : Prop := (a * sx ≤ i ∧ i < a * sx + px) ∧ (c * sy ≤ j ∧ j < c * sy + py)

instance (px py sx sy a c i j : Nat) : Decidable (Inside px py sx sy a c i j) := by unfold Inside; infer_instance

/-- The number of windows that contain entry `(i,j)`. -/
def cover (s : Shape) (px py sx sy i j : Nat) : Nat :=
  ∑ a ∈ Finset.range (windows s.X px sx), ∑ c ∈ Finset.range (windows s.Y py sy), if Inside px py sx sy a c i j then 1 else 0

/-- Inputs that are off by at most `e`: entry `(i,j)` is certainly the best one in window `(a,c)`. -/
def Sure (lt : ℝ → ℝ → Prop) (px py sx sy : Nat) (lo hi : Tensor) (a c i j k : Nat) : Prop :=
  Inside px py sx sy a c i j ∧ ∀ i' j', Inside px py sx sy a c i' j' → ¬ (i' = i ∧ j' = j) → lt (hi i' j' k) (lo i j k)

/-- Entry `(i,j)` is possibly the best one in window `(a,c)`. -/
def Possible (lt : ℝ → ℝ → Prop) (px py sx sy : Nat) (lo hi : Tensor) (a c i j k : Nat) : Prop :=
  Inside px py sx sy a c i j ∧ ∀ i' j', Inside px py sx sy a c i' j' → ¬ (i' = i ∧ j' = j) → ¬ lt (hi i j k) (lo i' j' k)

open Classical in
/-- The sum of the gradients of the windows with a property. -/
noncomputable def gather (s : Shape) (px py sx sy : Nat) (P : Nat → Nat → Nat → Nat → Nat → Prop) (g : Tensor) : Tensor := fun i j k =>
  ∑ a ∈ Finset.range (windows s.X px sx), ∑ c ∈ Finset.range (windows s.Y py sy), if P a c i j k then g a c k else 0

/-- The gradient with respect to the input `x` if that with respect to the output is `g`: what back-propagation should return.
(No layer object computes a `gate`.) -/
noncomputable def pull (s : Shape) (x g : Tensor) : NetLayer → Tensor
  | conv A B C F w _ => fun i j c => ∑ f ∈ Finset.range F, ∑ a ∈ Finset.range (s.X - A + 1), ∑ b ∈ Finset.range (s.Y - B + 1),
      if (a ≤ i ∧ i < a + A) ∧ (b ≤ j ∧ j < b + B) then w (i - a) (j - b) (f * C + c) * g a b f else 0
  | full n w _ => fun a b c => ∑ i ∈ Finset.range n, w i (a + b * s.X + c * (s.X * s.Y)) 0 * g i 0 0
  | pool .avg px py sx sy => gather s px py sx sy (fun a c i j _ => Inside px py sx sy a c i j) (fun i j k => g i j k / ((px : ℝ) * (py : ℝ)))
  | pool .max px py sx sy => gather s px py sx sy (fun a c i j k => i = a * sx + chosen (· ≤ ·) px py sx sy x a c k % px ∧
      j = c * sy + chosen (· ≤ ·) px py sx sy x a c k / px) g
  | pool .min px py sx sy => gather s px py sx sy (fun a c i j k => i = a * sx + chosen (· ≥ ·) px py sx sy x a c k % px ∧
      j = c * sy + chosen (· ≥ ·) px py sx sy x a c k / px) g
  | act f => fun i j k => g i j k * actSlope f (actSpec f (x i j k))
  | gate .. => fun _ _ _ => 0

/-- The gradient with respect to the weights. -/
noncomputable def weightGrad (s : Shape) (x g : Tensor) : NetLayer → Tensor
  | conv A B C _ _ _ => fun a b m => ∑ i ∈ Finset.range (s.X - A + 1), ∑ j ∈ Finset.range (s.Y - B + 1), x (a + i) (b + j) (m % C) * g i j (m / C)
  | full _ _ _ => fun i k _ => g i 0 0 * flatOf s.X s.Y x k
  | _ => fun _ _ _ => 0

/-- The gradient with respect to the biases. -/
noncomputable def biasGrad (s : Shape) (g : Tensor) : NetLayer → Nat → ℝ
  | conv A B _ _ _ _ => fun f => ∑ i ∈ Finset.range (s.X - A + 1), ∑ j ∈ Finset.range (s.Y - B + 1), g i j f
  | full _ _ _ => fun i => g i 0 0
  | _ => fun _ => 0

/-- The numbers of roundings and products on the way to an entry of `pull`. -/
def pullDepth (s : Shape) (i j : Nat) : NetLayer → Nat
  | conv A B _ F _ _ => (s.X - A + 1) * (s.Y - B + 1) + F + 1
  | full n _ _ => n + 1
  | pool .avg px py sx sy => cover s px py sx sy i j + 1
  | pool _ px py sx sy => cover s px py sx sy i j
  | _ => 1

def pullProducts (s : Shape) (i j : Nat) : NetLayer → Nat
  | conv A B _ F _ _ => F * ((s.X - A + 1) * (s.Y - B + 1))
  | full n _ _ => n
  | pool .avg px py sx sy => cover s px py sx sy i j
  | pool _ _ _ _ _ => 0
  | _ => 1

def weightDepth (s : Shape) : NetLayer → Nat
  | conv A B _ _ _ _ => (s.X - A + 1) * (s.Y - B + 1) + 1
  | _ => 2

def weightProducts (s : Shape) : NetLayer → Nat
  | conv A B _ _ _ _ => (s.X - A + 1) * (s.Y - B + 1)
  | _ => 1

def biasDepth (s : Shape) : NetLayer → Nat
  | conv A B _ _ _ _ => (s.X - A + 1) * (s.Y - B + 1)
  | _ => 0

/-- `pull` for magnitudes: `x` and `e` are the inputs and their errors, `m` the magnitudes of the gradients, `z` the errors of the
recorded outputs. `large` takes the entries that may be chosen and the largest slopes. -/
noncomputable def pullLarge (p : Precision) (s : Shape) (x e z m : Tensor) : NetLayer → Tensor
  | conv A B C F w β => pull s x m (conv A B C F (fun a b c => |w a b c|) β)
  | full n w β => pull s x m (full n (fun a b c => |w a b c|) β)
  | pool .max px py sx sy => gather s px py sx sy
      (Possible (· < ·) px py sx sy (fun i j k => x i j k - e i j k) (fun i j k => x i j k + e i j k)) m
  | pool .min px py sx sy => gather s px py sx sy
      (Possible (· > ·) px py sx sy (fun i j k => x i j k + e i j k) (fun i j k => x i j k - e i j k)) m
  | act f => fun i j k => m i j k * (|actSlope f (actSpec f (x i j k))| + p.slopeErr (x i j k) (e i j k) (z i j k) f)
  | l => pull s x m l

/-- `small` takes the entries that are certainly chosen and the exact slopes. -/
noncomputable def pullSmall (s : Shape) (x e m : Tensor) : NetLayer → Tensor
  | conv A B C F w β => pull s x m (conv A B C F (fun a b c => |w a b c|) β)
  | full n w β => pull s x m (full n (fun a b c => |w a b c|) β)
  | pool .max px py sx sy => gather s px py sx sy
      (Sure (· < ·) px py sx sy (fun i j k => x i j k - e i j k) (fun i j k => x i j k + e i j k)) m
  | pool .min px py sx sy => gather s px py sx sy
      (Sure (· > ·) px py sx sy (fun i j k => x i j k + e i j k) (fun i j k => x i j k - e i j k)) m
  | act f => fun i j k => m i j k * |actSlope f (actSpec f (x i j k))|
  | l => pull s x m l

/-- The largest magnitudes of numbers `x` that are off by at most `e`. -/
noncomputable def upto (x e : Tensor) : Tensor := fun i j k => |x i j k| + e i j k

noncomputable def mags (x : Tensor) : Tensor := fun i j k => |x i j k|

/-- The errors of the records of `x`. -/
noncomputable def recErr (q : Conversion) (x e : Tensor) : Tensor := fun i j k => q.err (x i j k) (e i j k)

/-- The error of the gradient with respect to the input `x`, off by `e`, if the gradient `g` with respect to the output is off
by `d`. -/
noncomputable def pullErr (p : Precision) (q : Conversion) (s : Shape) (x e g d : Tensor) (l : NetLayer) : Tensor := fun i j k =>
  p.grown (l.pullDepth s i j) (l.pullProducts s i j) (l.pullLarge p s x e (recErr q (l.eval s x) (l.err p s x e)) (upto g d) i j k)
    (l.pullSmall s x e (mags g) i j k)

noncomputable def weightErr (p : Precision) (q : Conversion) (s : Shape) (x e g d : Tensor) (l : NetLayer) : Tensor := fun a b c =>
  p.grown (l.weightDepth s) (l.weightProducts s) (l.weightGrad s (upto x (recErr q x e)) (upto g d) a b c) (l.weightGrad s (mags x) (mags g) a b c)

noncomputable def biasErr (p : Precision) (s : Shape) (g d : Tensor) (l : NetLayer) : Nat → ℝ := fun f =>
  p.grown (l.biasDepth s) 0 (l.biasGrad s (upto g d) f) (l.biasGrad s (mags g) f)

/-- Nothing overflows in the gradient with respect to the input. -/
def PullRoom (p : Precision) (q : Conversion) (s : Shape) (x e g d : Tensor) (l : NetLayer) : Prop :=
  (∀ i < s.X, ∀ j < s.Y, ∀ k < s.Z,
    p.Room (l.pullDepth s i j) (l.pullProducts s i j) (l.pullLarge p s x e (recErr q (l.eval s x) (l.err p s x e)) (upto g d) i j k)) ∧
  match l with
  | act f => ∀ i < s.X, ∀ j < s.Y, ∀ k < s.Z, p.SlopeRoom (x i j k) (recErr q (l.eval s x) (l.err p s x e) i j k) f
  | _ => True

/-- Nothing overflows in the gradients with respect to the parameters. -/
def ParamRoom (p : Precision) (q : Conversion) (s : Shape) (x e g d : Tensor) (l : NetLayer) : Prop :=
  (∀ a < (l.weightShape s).X, ∀ b < (l.weightShape s).Y, ∀ c < (l.weightShape s).Z,
    p.Room (l.weightDepth s) (l.weightProducts s) (l.weightGrad s (upto x (recErr q x e)) (upto g d) a b c)) ∧
  ∀ f < l.biasCount, p.Room (l.biasDepth s) 0 (l.biasGrad s (upto g d) f)

/-- In each MAX or MIN window one entry is best, and no input of LEAKY_RELU is 0. -/
def Clear (s : Shape) (x : Tensor) : NetLayer → Prop
  | pool .max px py sx sy => ∀ a < windows s.X px sx, ∀ c < windows s.Y py sy, ∀ k < s.Z, ∃ i j, Inside px py sx sy a c i j ∧
      ∀ i' j', Inside px py sx sy a c i' j' → ¬ (i' = i ∧ j' = j) → x i' j' k < x i j k
  | pool .min px py sx sy => ∀ a < windows s.X px sx, ∀ c < windows s.Y py sy, ∀ k < s.Z, ∃ i j, Inside px py sx sy a c i j ∧
      ∀ i' j', Inside px py sx sy a c i' j' → ¬ (i' = i ∧ j' = j) → x i j k < x i' j' k
  | act .leaky => ∀ i < s.X, ∀ j < s.Y, ∀ k < s.Z, x i j k ≠ 0
  | _ => True

/-- The numbers `x`, off by at most `e`, can be converted to `float`. -/
def RecRoom (q : Conversion) (s : Shape) (x e : Tensor) : Prop := ∀ i < s.X, ∀ j < s.Y, ∀ k < s.Z, |x i j k| + e i j k ≤ q.Ω

end NetLayer

/-! ## Networks -/

/-- The errors of the recorded probabilities if the inputs of softmax are off by at most `ε`. -/
noncomputable def probErr (p : Precision) (q : Conversion) (n : Nat) (ε : ℝ) (v : Nat → ℝ) (i : Nat) : ℝ :=
  q.err (softmax n v i) (softmax n v i * (Real.exp (2 * ε) - 1) + p.softmaxErr n)

/-- The gradient of the loss with respect to the input of softmax, for the true label `t`. -/
noncomputable def lossGrad (s : Shape) (n t : Nat) (x : Tensor) : Tensor := fun i j _ =>
  softmax n (flatOf s.X s.Y x) (i + j) - if i + j = t then 1 else 0

noncomputable def lossErr (p : Precision) (q : Conversion) (s : Shape) (n t : Nat) (ε : ℝ) (x : Tensor) : Tensor := fun i j _ =>
  if i + j = t then
    p.grown 1 0 (|softmax n (flatOf s.X s.Y x) (i + j) - 1| + probErr p q n ε (flatOf s.X s.Y x) (i + j)) |softmax n (flatOf s.X s.Y x) (i + j) - 1|
  else probErr p q n ε (flatOf s.X s.Y x) (i + j)

/-- The gradient with respect to the input of a network. -/
noncomputable def netGrad (n t : Nat) : List NetLayer → Shape → Tensor → Tensor
  | [], s, x => lossGrad s n t x
  | l :: ls, s, x => l.pull s x (netGrad n t ls (l.out s) (l.eval s x))

noncomputable def netGradErr (p : Precision) (q : Conversion) (n t : Nat) (ε : ℝ) : List NetLayer → Shape → Tensor → Tensor → Tensor
  | [], s, x, _ => lossErr p q s n t ε x
  | l :: ls, s, x, e => l.pullErr p q s x e (netGrad n t ls (l.out s) (l.eval s x)) (netGradErr p q n t ε ls (l.out s) (l.eval s x) (l.err p s x e))

/-- The gradients with respect to the parameters of layer `i`. -/
noncomputable def netWeightGrad (n t : Nat) : Nat → List NetLayer → Shape → Tensor → Tensor
  | _, [], _, _ => fun _ _ _ => 0
  | 0, l :: ls, s, x => l.weightGrad s x (netGrad n t ls (l.out s) (l.eval s x))
  | i + 1, l :: ls, s, x => netWeightGrad n t i ls (l.out s) (l.eval s x)

noncomputable def netBiasGrad (n t : Nat) : Nat → List NetLayer → Shape → Tensor → Nat → ℝ
  | _, [], _, _ => fun _ => 0
  | 0, l :: ls, s, x => l.biasGrad s (netGrad n t ls (l.out s) (l.eval s x))
  | i + 1, l :: ls, s, x => netBiasGrad n t i ls (l.out s) (l.eval s x)

/-- Their errors. -/
noncomputable def netWeightErr (p : Precision) (q : Conversion) (n t : Nat) (ε : ℝ) : Nat → List NetLayer → Shape → Tensor → Tensor → Tensor
  | _, [], _, _, _ => fun _ _ _ => 0
  | 0, l :: ls, s, x, e => l.weightErr p q s x e (netGrad n t ls (l.out s) (l.eval s x)) (netGradErr p q n t ε ls (l.out s) (l.eval s x) (l.err p s x e))
  | i + 1, l :: ls, s, x, e => netWeightErr p q n t ε i ls (l.out s) (l.eval s x) (l.err p s x e)

noncomputable def netBiasErr (p : Precision) (q : Conversion) (n t : Nat) (ε : ℝ) : Nat → List NetLayer → Shape → Tensor → Tensor → Nat → ℝ
  | _, [], _, _, _ => fun _ => 0
  | 0, l :: ls, s, x, e => l.biasErr p s (netGrad n t ls (l.out s) (l.eval s x)) (netGradErr p q n t ε ls (l.out s) (l.eval s x) (l.err p s x e))
  | i + 1, l :: ls, s, x, e => netBiasErr p q n t ε i ls (l.out s) (l.eval s x) (l.err p s x e)

/-- No layer is at a tie, nor at the kink of LEAKY_RELU. -/
def NetClear : List NetLayer → Shape → Tensor → Prop
  | [], _, _ => True
  | l :: ls, s, x => l.Clear s x ∧ NetClear ls (l.out s) (l.eval s x)

/-- Nothing overflows in back-propagation. The gradient with respect to the input of the first layer is not needed. -/
def NetBackRoom (p : Precision) (q : Conversion) (n t : Nat) (ε : ℝ) : Bool → List NetLayer → Shape → Tensor → Tensor → Prop
  | _, [], s, x, e => NetLayer.RecRoom q s x e ∧
      (∀ i < n, softmax n (flatOf s.X s.Y x) i + (softmax n (flatOf s.X s.Y x) i * (Real.exp (2 * ε) - 1) + p.softmaxErr n) ≤ q.Ω) ∧
      |softmax n (flatOf s.X s.Y x) t - 1| + probErr p q n ε (flatOf s.X s.Y x) t ≤ p.Ω
  | first, l :: ls, s, x, e => NetLayer.RecRoom q s x e ∧
      (first = true ∨ l.PullRoom p q s x e (netGrad n t ls (l.out s) (l.eval s x)) (netGradErr p q n t ε ls (l.out s) (l.eval s x) (l.err p s x e))) ∧
      l.ParamRoom p q s x e (netGrad n t ls (l.out s) (l.eval s x)) (netGradErr p q n t ε ls (l.out s) (l.eval s x) (l.err p s x e)) ∧
      NetBackRoom p q n t ε false ls (l.out s) (l.eval s x) (l.err p s x e)

end Cnn

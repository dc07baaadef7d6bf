import Verif.Spec.Real
import Verif.Spec.Kernel
import Verif.Spec.Connected
import Verif.Spec.Pooling
import Verif.Spec.Slots
/-!
# Networks as functions of real numbers (C65)

What a network computes, written down without reference to the program: layers as functions of tables of real numbers, their
composition, and the loss `-ln (probability of the true label)`. `Denotes` says which layer object of the model computes
which of these functions.
-/
namespace Cnn

/-- A table of real numbers; only the entries inside a shape matter. -/
abbrev Tensor := Nat → Nat → Nat → ℝ

structure Shape where
  X : Nat
  Y : Nat
  Z : Nat

/-- The kinds of layers: convolution with `F` filters of size `A × B × C`, pooling, fully connected with `n` outputs,
activation. The weights of a fully connected layer are `w i k 0`. In a `gate`, which no layer object of the program computes,
each output is a fixed affine function of one entry of the input (C83). -/
inductive NetLayer
  | conv (A B C F : Nat) (w : Tensor) (β : Nat → ℝ)
  | pool (t : PoolType) (px py sx sy : Nat)
  | full (n : Nat) (w : Tensor) (β : Nat → ℝ)
  | act (f : ActFn)
  | gate (X Y : Nat) (u v : Nat → Nat → Nat → Nat) (m c : Tensor)

namespace NetLayer

/-- The shape of the output. -/
def out (s : Shape) : NetLayer → Shape
  | conv A B _ F _ _ => ⟨s.X - A + 1, s.Y - B + 1, F⟩
  | pool _ px py sx sy => ⟨windows s.X px sx, windows s.Y py sy, s.Z⟩
  | full n _ _ => ⟨n, 1, 1⟩
  | act _ => s
  | gate X Y _ _ _ _ => ⟨X, Y, s.Z⟩

/-- The values in the pooling window of output `(i,j,k)`. -/
def window (px py sx sy : Nat) (x : Tensor) (i j k : Nat) : Set ℝ :=
  {v | ∃ a < px, ∃ c < py, v = x (i * sx + a) (j * sy + c) k}

/-- The output for the input `x` of shape `s`. -/
noncomputable def eval (s : Shape) (x : Tensor) : NetLayer → Tensor
  | conv A B C _ w β => convLayer A B C w β x
  | pool .max px py sx sy => fun i j k => sSup (window px py sx sy x i j k)
  | pool .min px py sx sy => fun i j k => sInf (window px py sx sy x i j k)
  | pool .avg px py sx sy => fun i j k =>
    (∑ a ∈ Finset.range px, ∑ c ∈ Finset.range py, x (i * sx + a) (j * sy + c) k) / ((px : ℝ) * (py : ℝ))
  | full _ w β => fun i _ _ => β i + ∑ k ∈ Finset.range (s.X * s.Y * s.Z), w i k 0 * flatOf s.X s.Y x k
  | act f => fun i j k => actSpec f (x i j k)
  | gate _ _ u v m c => fun i j k => m i j k * x (u i j k) (v i j k) k + c i j k

/-- The parameters, if the layer has any. -/
def params : NetLayer → Option (Tensor × (Nat → ℝ))
  | conv _ _ _ _ w β => some (w, β)
  | full _ w β => some (w, β)
  | _ => none

/-- The layer with other parameters. -/
def withParams (w : Tensor) (β : Nat → ℝ) : NetLayer → NetLayer
  | conv A B C F _ _ => conv A B C F w β
  | full n _ _ => full n w β
  | l => l

/-- The shape of the weights, and the number of biases, of a layer with inputs of shape `s`. -/
def weightShape (s : Shape) : NetLayer → Shape
  | conv A B C F _ _ => ⟨A, B, C * F⟩
  | full n _ _ => ⟨n, s.X * s.Y * s.Z, 1⟩
  | _ => ⟨0, 0, 0⟩

def biasCount : NetLayer → Nat
  | conv _ _ _ F _ _ => F
  | full n _ _ => n
  | _ => 0

/-- The layer can process inputs of shape `s`. -/
def Fits (s : Shape) : NetLayer → Prop
  | conv A B C F _ _ => s.Z = C ∧ ConvFits s.X s.Y A B F
  | pool _ px py sx sy => PoolFits s.X s.Y px py sx sy
  | full _ _ _ => True
  | act _ => True
  | gate .. => True

/-- The restrictions under which back-propagation through the layer works. For a convolution that is not the first layer the
output must be square (C36) and the padded filter must fit an `int`. -/
def Trains (first : Bool) (s : Shape) : NetLayer → Prop
  | conv A B _ _ _ _ => first = true ∨ (s.X - A = s.Y - B ∧ (A + 2 * (s.X - A)) * (B + 2 * (s.Y - B)) < 2147483648)
  | _ => True

/-- The layer is differentiable at the input `x`, and its activation function is one that the program differentiates: it is
LINEAR, or RELU with no input 0 (C24); in every window of a MAX or MIN layer the extremum occurs only once. -/
def Smooth (s : Shape) (x : Tensor) : NetLayer → Prop
  | act f => f = .linear ∨ f = .relu ∧ ∀ i < s.X, ∀ j < s.Y, ∀ k < s.Z, x i j k ≠ 0
  | pool .max px py sx sy => ∀ i < windows s.X px sx, ∀ j < windows s.Y py sy, ∀ k < s.Z, ∃ p < px, ∃ q < py,
      ∀ a < px, ∀ c < py, ¬ (a = p ∧ c = q) → x (i * sx + a) (j * sy + c) k < x (i * sx + p) (j * sy + q) k
  | pool .min px py sx sy => ∀ i < windows s.X px sx, ∀ j < windows s.Y py sy, ∀ k < s.Z, ∃ p < px, ∃ q < py,
      ∀ a < px, ∀ c < py, ¬ (a = p ∧ c = q) → x (i * sx + p) (j * sy + q) k < x (i * sx + a) (j * sy + c) k
  | _ => True

end NetLayer

/-- A network is a list of layers. -/
def netOut : List NetLayer → Shape → Shape
  | [], s => s
  | l :: ls, s => netOut ls (l.out s)

noncomputable def netEval : List NetLayer → Shape → Tensor → Tensor
  | [], _, x => x
  | l :: ls, s, x => netEval ls (l.out s) (l.eval s x)

/-- Probability of label `t` of `n`: softmax of the entries of the last output. -/
noncomputable def netProb (ls : List NetLayer) (s : Shape) (n : Nat) (x : Tensor) (t : Nat) : ℝ :=
  softmax n (flatOf (netOut ls s).X (netOut ls s).Y (netEval ls s x)) t

/-- The loss for the true label `t`. -/
noncomputable def netLoss (ls : List NetLayer) (s : Shape) (n t : Nat) (x : Tensor) : ℝ := -Real.log (netProb ls s n x t)

/-- All layers fit. -/
def NetFits : List NetLayer → Shape → Prop
  | [], _ => True
  | l :: ls, s => l.Fits s ∧ NetFits ls (l.out s)

/-- All layers are restricted as `Trains` says. -/
def NetTrains : Bool → List NetLayer → Shape → Prop
  | _, [], _ => True
  | first, l :: ls, s => l.Trains first s ∧ NetTrains false ls (l.out s)

/-- All layers are differentiable at the inputs they receive. -/
def NetSmooth : List NetLayer → Shape → Tensor → Prop
  | [], _, _ => True
  | l :: ls, s, x => l.Smooth s x ∧ NetSmooth ls (l.out s) (l.eval s x)

/-- The layer object computes the layer `l` on inputs of shape `s` and has a batch slot `b`. A fully connected layer that is
not the first must have been given its size by an input of this shape (C38). -/
def Body.Denotes (b : Nat) (first : Bool) (s : Shape) : Body ℝ → NetLayer → Prop
  | .kernel K, .conv A B C F w β => K.Is A B C F 1 w β ∧ b < K.wGrads.length ∧ b < K.bGrads.length
  | .pooling P, .pool t px py sx sy => P.type = t ∧ P.dim = ⟨px, py⟩ ∧ P.stride = ⟨sx, sy⟩ ∧ b < P.indices.length
  | .connected L, .full n w β => L.Is n (s.X * s.Y * s.Z) (fun i k => w i k 0) β ∧ b < L.wGrads.length ∧
      b < L.bGrads.length ∧ (first = true ∨ L.inputDim = dimN s.X s.Y s.Z)
  | .activation A, .act f => A = Activation.new f
  | _, _ => False

/-- The layer objects compute the layers of a network on inputs of shape `s`. -/
def DenotesAll (b : Nat) : Bool → Shape → List (Body ℝ) → List NetLayer → Prop
  | _, _, [], [] => True
  | first, s, B :: Bs, l :: ls => B.Denotes b first s l ∧ DenotesAll b false (l.out s) Bs ls
  | _, _, _, _ => False

/-- The model consists of the layers of a network and a softmax layer over its `n` labels; the last output of the network is
a row or column of `n` entries. -/
structure Model.Denotes (M : Model ℝ) (b : Nat) (s : Shape) (ls : List NetLayer) (n : Nat) : Prop where
  layers : ∃ Bs S, M.layers.map (·.body) = Bs ++ [.softmax S] ∧ DenotesAll b true s Bs ls ∧ S.count = n
  labels : M.labels.length = n
  output : netOut ls s = ⟨n, 1, 1⟩ ∨ netOut ls s = ⟨1, n, 1⟩

/-- Exact arithmetic without rounding of the records; the random numbers are arbitrary. -/
structure Env.Exact (E : Env ℝ) : Prop where
  num : E.num = Num.real
  toFloat : E.toFloat = id
  order : E.order = .dimsFirst

/-- A tensor with one entry replaced. -/
def Tensor.update (w : Tensor) (a b c : Nat) (v : ℝ) : Tensor := fun i j k => if i = a ∧ j = b ∧ k = c then v else w i j k

end Cnn

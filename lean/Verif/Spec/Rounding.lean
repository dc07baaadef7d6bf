import Verif.Spec.Net
/-!
# Rounded arithmetic (C84)

`Floating N p` is what is assumed of the C++ type `double` and its library functions: each operation on finite numbers whose
exact result is not too large gives a finite number close to the exact result. The rest says how far the outputs of the
layers may then be from those of the exact network of Spec/Net.lean.
-/
namespace Cnn

/-- The constants of an arithmetic: `u` bounds the relative error of an operation, `v` that of `exp` and `tanh`, `η` the
absolute error when a product, a quotient or a function value is too small, and results up to `Ω` do not overflow. -/
structure Precision where
  u : ℝ
  v : ℝ
  η : ℝ
  Ω : ℝ

/-- The constants are sensible. -/
structure Precision.Ok (p : Precision) : Prop where
  u0 : 0 ≤ p.u
  v0 : 0 ≤ p.v
  η0 : 0 ≤ p.η
  u1 : p.u ≤ 1 / 16
  v1 : p.v ≤ 1 / 16
  η1 : p.η ≤ 1 / 16
  Ω1 : 4 ≤ p.Ω

/-- An arithmetic with finite numbers `Fin`, whose values are the real numbers `val`, rounded as `p` says. Nothing is assumed
of infinities and NaN. -/
structure Floating {α : Type} [Zero α] [One α] [Add α] [Sub α] [Mul α] [Div α] [Neg α] (N : Num α) (p : Precision) where
  Fin : α → Prop
  val : α → ℝ
  zero : Fin 0 ∧ val 0 = 0
  one : Fin 1 ∧ val 1 = 1
  neg : ∀ a, Fin a → Fin (-a) ∧ val (-a) = -val a
  add : ∀ a b, Fin a → Fin b → |val a + val b| ≤ p.Ω → Fin (a + b) ∧ |val (a + b) - (val a + val b)| ≤ p.u * |val a + val b|
  sub : ∀ a b, Fin a → Fin b → |val a - val b| ≤ p.Ω → Fin (a - b) ∧ |val (a - b) - (val a - val b)| ≤ p.u * |val a - val b|
  mul : ∀ a b, Fin a → Fin b → |val a * val b| ≤ p.Ω → Fin (a * b) ∧ |val (a * b) - val a * val b| ≤ p.u * |val a * val b| + p.η
  div : ∀ a b, Fin a → Fin b → val b ≠ 0 → |val a / val b| ≤ p.Ω →
    Fin (a / b) ∧ |val (a / b) - val a / val b| ≤ p.u * |val a / val b| + p.η
  lt : ∀ a b, Fin a → Fin b → (N.lt a b = true ↔ val a < val b)
  ofNat : ∀ n < 2147483648, Fin (N.ofNat n) ∧ val (N.ofNat n) = n
  slope : Fin N.slopeF ∧ val N.slopeF = 13421773 / 2 ^ 27
  exp : ∀ a, Fin a → Real.exp (val a) ≤ p.Ω → Fin (N.exp a) ∧ |val (N.exp a) - Real.exp (val a)| ≤ p.v * Real.exp (val a) + p.η
  tanh : ∀ a, Fin a → Fin (N.tanh a) ∧ |val (N.tanh a) - Real.tanh (val a)| ≤ p.v * |Real.tanh (val a)| + p.η

/-- Entries `x` up to errors `e`, all finite. -/
def Matrix.Near {α : Type} [Zero α] [One α] [Add α] [Sub α] [Mul α] [Div α] [Neg α] {N : Num α} {p : Precision} (F : Floating N p)
    (M : Matrix α) (s : Shape) (x e : Tensor) : Prop :=
  ∃ f, M.Shows s.X s.Y s.Z f ∧ ∀ i < s.X, ∀ j < s.Y, ∀ k < s.Z, F.Fin (f i j k) ∧ |F.val (f i j k) - x i j k| ≤ e i j k

/-- The layer object stores the parameters of the layer `l` (finite numbers) and is used on inputs of shape `s`. -/
def Body.Holds {α : Type} [Zero α] [One α] [Add α] [Sub α] [Mul α] [Div α] [Neg α] {N : Num α} {p : Precision} (F : Floating N p)
    (b : Nat) (s : Shape) : Body α → NetLayer → Prop
  | .kernel K, .conv A B C M w β => ∃ w' β', K.Is A B C M 1 w' β' ∧
      (∀ a < A, ∀ b < B, ∀ c < C * M, F.Fin (w' a b c) ∧ F.val (w' a b c) = w a b c) ∧ ∀ f < M, F.Fin (β' f) ∧ F.val (β' f) = β f
  | .pooling P, .pool t px py sx sy => P.type = t ∧ P.dim = ⟨px, py⟩ ∧ P.stride = ⟨sx, sy⟩ ∧ b < P.indices.length
  | .connected L, .full n w β => ∃ w' β', L.Is n (s.X * s.Y * s.Z) w' β' ∧
      (∀ i < n, ∀ k < s.X * s.Y * s.Z, F.Fin (w' i k) ∧ F.val (w' i k) = w i k 0) ∧ ∀ i < n, F.Fin (β' i) ∧ F.val (β' i) = β i
  | .activation A, .act f => A = Activation.new f
  | _, _ => False

def HoldsAll {α : Type} [Zero α] [One α] [Add α] [Sub α] [Mul α] [Div α] [Neg α] {N : Num α} {p : Precision} (F : Floating N p)
    (b : Nat) : Shape → List (Body α) → List NetLayer → Prop
  | _, [], [] => True
  | s, B :: Bs, l :: ls => B.Holds F b s l ∧ HoldsAll F b (l.out s) Bs ls
  | _, _, _ => False

/-- A model of rounded arithmetic that stores the parameters of a network and has a softmax layer over its `n` labels. -/
structure Model.Holds {α : Type} [Zero α] [One α] [Add α] [Sub α] [Mul α] [Div α] [Neg α] {N : Num α} {p : Precision} (F : Floating N p)
    (M : Model α) (b : Nat) (s : Shape) (ls : List NetLayer) (n : Nat) : Prop where
  layers : ∃ Bs S, M.layers.map (·.body) = Bs ++ [.softmax S] ∧ HoldsAll F b s Bs ls ∧ S.count = n
  labels : M.labels.length = n
  output : netOut ls s = ⟨n, 1, 1⟩ ∨ netOut ls s = ⟨1, n, 1⟩

namespace NetLayer

/-- The sum of the magnitudes that an output of a convolution or fully connected layer, or the sum in an AVG window, adds up,
for inputs with magnitudes up to `m`. -/
noncomputable def magnitude (s : Shape) (m : Tensor) : NetLayer → Tensor
  | conv A B C _ w β => convLayer A B C (fun a b c => |w a b c|) (fun f => |β f|) m
  | full _ w β => fun i _ _ => |β i| + ∑ k ∈ Finset.range (s.X * s.Y * s.Z), |w i k 0| * flatOf s.X s.Y m k
  | pool _ px py sx sy => fun i j k => ∑ a ∈ Finset.range px, ∑ c ∈ Finset.range py, m (i * sx + a) (j * sy + c) k
  | _ => m

/-- The number of roundings on the way to an output. -/
def depth (s : Shape) : NetLayer → Nat
  | conv A B C _ _ _ => A * B + C + 2
  | full _ _ _ => s.X * s.Y * s.Z + 2
  | pool _ px py _ _ => px * py + 1
  | _ => 1

/-- The number of products on the way to an output. -/
def products (s : Shape) : NetLayer → Nat
  | conv A B C _ _ _ => A * B * C
  | full _ _ _ => s.X * s.Y * s.Z
  | _ => 0

/-- How far an exact layer can move its output if the inputs move by at most `e`. -/
noncomputable def spread (s : Shape) (e : Tensor) : NetLayer → Tensor
  | conv A B C _ w _ => convLayer A B C (fun a b c => |w a b c|) (fun _ => 0) e
  | full _ w _ => fun i _ _ => ∑ k ∈ Finset.range (s.X * s.Y * s.Z), |w i k 0| * flatOf s.X s.Y e k
  | pool .avg px py sx sy => fun i j k =>
    (∑ a ∈ Finset.range px, ∑ c ∈ Finset.range py, e (i * sx + a) (j * sy + c) k) / ((px : ℝ) * (py : ℝ))
  | pool _ px py sx sy => fun i j k => sSup (window px py sx sy e i j k)
  | act .sigmoid => fun i j k => e i j k / 4
  | _ => e

/-- How much rounding adds for inputs with magnitudes up to `m`. -/
noncomputable def rounding (p : Precision) (s : Shape) (m : Tensor) : NetLayer → Tensor
  | l@(conv ..) => fun i j k => ((1 + p.u) ^ l.depth s - 1) * l.magnitude s m i j k + (1 + p.u) ^ l.depth s * (l.products s * p.η)
  | l@(full ..) => fun i j k => ((1 + p.u) ^ l.depth s - 1) * l.magnitude s m i j k + (1 + p.u) ^ l.depth s * (l.products s * p.η)
  | l@(pool .avg px py _ _) => fun i j k =>
    ((1 + p.u) ^ l.depth s - 1) * (l.magnitude s m i j k / ((px : ℝ) * (py : ℝ))) + p.η
  | act .leaky => fun i j k => p.u * m i j k + p.η
  | act .sigmoid => fun _ _ _ => 3 * p.u + 2 * p.v + 3 * p.η
  | act .tangent => fun _ _ _ => p.v + p.η
  | _ => fun _ _ _ => 0

/-- The error of the output of a layer whose exact input is `x` and whose actual input is off by at most `e`. -/
noncomputable def err (p : Precision) (s : Shape) (x e : Tensor) (l : NetLayer) : Tensor := fun i j k =>
  l.spread s e i j k + l.rounding p s (fun i j k => |x i j k| + e i j k) i j k

/-- Nothing overflows: the sums of magnitudes, with what rounding may add, stay below `Ω`. -/
noncomputable def InRange (p : Precision) (s : Shape) (x e : Tensor) (l : NetLayer) : Prop :=
  match l with
  | act .sigmoid => ∀ i < s.X, ∀ j < s.Y, ∀ k < s.Z, 2 + 2 * Real.exp (|x i j k| + e i j k) ≤ p.Ω
  | act .leaky => ∀ i < s.X, ∀ j < s.Y, ∀ k < s.Z, |x i j k| + e i j k ≤ p.Ω
  | act _ | pool .max _ _ _ _ | pool .min _ _ _ _ => True
  | _ => ∀ i < (l.out s).X, ∀ j < (l.out s).Y, ∀ k < (l.out s).Z,
      (1 + p.u) ^ l.depth s * (l.magnitude s (fun i j k => |x i j k| + e i j k) i j k + l.products s * p.η) ≤ p.Ω

end NetLayer

/-- The error of the last output of a network. -/
noncomputable def netErr (p : Precision) : List NetLayer → Shape → Tensor → Tensor → Tensor
  | [], _, _, e => e
  | l :: ls, s, x, e => netErr p ls (l.out s) (l.eval s x) (l.err p s x e)

/-- Nothing overflows in any layer. -/
noncomputable def NetInRange (p : Precision) : List NetLayer → Shape → Tensor → Tensor → Prop
  | [], _, _, _ => True
  | l :: ls, s, x, e => l.InRange p s x e ∧ NetInRange p ls (l.out s) (l.eval s x) (l.err p s x e)

namespace Precision

/-- The error of one exponential in softmax. -/
noncomputable def expErr (p : Precision) : ℝ := 2 * p.u + p.v + p.η

/-- The error of the sum of `n` exponentials in softmax. -/
noncomputable def sumErr (p : Precision) (n : Nat) : ℝ := ((1 + p.u) ^ n - 1) * (n * (1 + p.expErr)) + n * p.expErr

/-- The error of a softmax over `n` numbers. -/
noncomputable def softmaxErr (p : Precision) (n : Nat) : ℝ := 2 * (1 + p.u) * (p.expErr + p.sumErr n) + p.u + p.η

end Precision
end Cnn

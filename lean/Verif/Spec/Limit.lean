import Verif.Spec.Rounding
import Verif.Model.Train
import Verif.Spec.Safe
/-!
# Training as the precision grows (C87)

`Arith.Sharp δ` is an arithmetic whose roundings are within `δ`. `Ideal` is an arithmetic without rounding in which equal
numbers may compare as different: what is left of rounding when the precision grows.
-/
namespace Cnn

/-! ## The same objects with other numbers -/

section
variable {α β : Type}

def Matrix.map (φ : α → β) (M : Matrix α) : Matrix β := ⟨M.dim, M.vals.map φ⟩

def Kernel.map (φ : α → β) (K : Kernel α) : Kernel β :=
  ⟨K.dim, K.numFilters, K.stride, K.weights.map φ, K.biases.map φ, K.wGrads.map (Matrix.map φ), K.bGrads.map (Matrix.map φ)⟩

def Connected.map (φ : α → β) (L : Connected α) : Connected β :=
  ⟨L.weights.map φ, L.biases.map φ, L.inputDim, L.initialized, L.wGrads.map (Matrix.map φ), L.bGrads.map (Matrix.map φ)⟩

def Body.map (φ : α → β) : Body α → Body β
  | .kernel K => .kernel (K.map φ)
  | .pooling P => .pooling P
  | .connected L => .connected (L.map φ)
  | .activation A => .activation A
  | .softmax S => .softmax S

def Layer.map (φ : α → β) (L : Layer α) : Layer β := ⟨L.name, L.body.map φ⟩

def Model.map (φ : α → β) (M : Model α) : Model β :=
  ⟨M.layers.map (Layer.map φ), M.labels, M.softmax, M.kernels, M.poolings, M.connecteds, M.activations⟩

def Sample.map (φ : α → β) (x : Sample α) : Sample β := ⟨x.data.map φ, x.label⟩

def Hyper.map (φ : α → β) (p : Hyper α) : Hyper β := ⟨φ p.rate, p.batch, p.threads, p.epochs⟩

end

/-! ## Arithmetic without rounding -/

/-- The numbers have real values, with which all operations are exact; only of equal numbers may one count as less than the
other. Comparison is a strict weak order, and conversion to `float` makes no number positive. -/
structure Ideal {α : Type} [Zero α] [One α] [Add α] [Sub α] [Mul α] [Div α] [Neg α] (E : Env α) (val : α → ℝ) : Prop where
  zero : val 0 = 0
  one : val 1 = 1
  neg : ∀ a, val (-a) = -val a
  add : ∀ a b, val (a + b) = val a + val b
  sub : ∀ a b, val (a - b) = val a - val b
  mul : ∀ a b, val (a * b) = val a * val b
  div : ∀ a b, val b ≠ 0 → val (a / b) = val a / val b
  ofNat : ∀ n, val (E.num.ofNat n) = n
  slopeF : val E.num.slopeF = 13421773 / 2 ^ 27
  slopeD : val E.num.slopeD = 3602879701896397 / 2 ^ 55
  exp : ∀ a, val (E.num.exp a) = Real.exp (val a)
  tanh : ∀ a, val (E.num.tanh a) = Real.tanh (val a)
  sqrt : ∀ a, 0 < val a → val (E.num.sqrt a) = Real.sqrt (val a)
  toFloat : ∀ a, val (E.toFloat a) = val a
  less : ∀ a b, val a < val b → E.num.lt a b = true
  notLess : ∀ a b, val b < val a → E.num.lt a b = false
  irrefl : ∀ a, E.num.lt a a = false
  trans : ∀ a b c, E.num.lt a b = true → E.num.lt b c = true → E.num.lt a c = true
  weak : ∀ a b c, E.num.lt a b = false → E.num.lt a c = true → E.num.lt b c = true
  float0 : ∀ a, E.num.lt 0 a = false → E.num.lt 0 (E.toFloat a) = false

/-- What training may lead to without rounding: a run in an ideal arithmetic, where a parameter that is 0, say, may be
represented by a number that counts as positive. `d` are the random numbers. -/
def IdealRun (d : Nat → Nat → ℝ) (p : Hyper ℝ) (size : Nat) (epochs : List (List (List Nat) × List (Sample ℝ))) (M : Model ℝ)
    (o : Option (Model ℝ)) : Prop :=
  ∃ (α : Type) (_ : Zero α) (_ : One α) (_ : Add α) (_ : Sub α) (_ : Mul α) (_ : Div α) (_ : Neg α) (E : Env α) (val : α → ℝ)
    (p' : Hyper α) (epochs' : List (List (List Nat) × List (Sample α))) (M' : Model α) (o' : Option (Model α)),
    Ideal E val ∧ E.order = .dimsFirst ∧ (∀ i n, val (E.draws i n) = d i n) ∧ p'.map val = p ∧
    epochs'.map (fun e => (e.1, e.2.map (Sample.map val))) = epochs ∧ M'.map val = M ∧
    Train.train E p' size epochs' M' = .ok o' ∧ o = o'.map (Model.map val)

/-! ## Rounded arithmetic of high precision -/

/-- An arithmetic in which the program can be run, with what is assumed of it in Spec/Rounding.lean. -/
structure Arith where
  carrier : Type
  zero : Zero carrier
  one : One carrier
  add : Add carrier
  sub : Sub carrier
  mul : Mul carrier
  div : Div carrier
  neg : Neg carrier
  env : Env carrier
  prec : Precision
  float : Floating env.num prec

namespace Arith
attribute [instance] zero one add sub mul div neg

/-- All roundings are within `δ`, relative to numbers larger than 1 and absolute below, for numbers up to `1 / δ`. Conversion to
`float` keeps the sign of negative numbers. -/
structure Sharp (A : Arith) (δ : ℝ) : Prop where
  u : A.prec.u ≤ δ
  v : A.prec.v ≤ δ
  η : A.prec.η ≤ δ
  Ω : 1 / δ ≤ A.prec.Ω
  ofNat : ∀ n : Nat, (n : ℝ) ≤ 1 / δ → A.float.Fin (A.env.num.ofNat n) ∧ |A.float.val (A.env.num.ofNat n) - n| ≤ δ * (1 + n)
  slope : A.float.Fin A.env.num.slopeD ∧ |A.float.val A.env.num.slopeD - 3602879701896397 / 2 ^ 55| ≤ δ
  sqrt : ∀ a, A.float.Fin a → 0 < A.float.val a → A.float.Fin (A.env.num.sqrt a) ∧
    |A.float.val (A.env.num.sqrt a) - Real.sqrt (A.float.val a)| ≤ δ * (1 + Real.sqrt (A.float.val a))
  toFloat : ∀ a, A.float.Fin a → |A.float.val a| ≤ 1 / δ → A.float.Fin (A.env.toFloat a) ∧
    |A.float.val (A.env.toFloat a) - A.float.val a| ≤ δ * (1 + |A.float.val a|)
  float0 : ∀ a, A.float.Fin a → A.float.val a ≤ 0 → A.float.Fin (A.env.toFloat a) → A.float.val (A.env.toFloat a) ≤ 0
  order : A.env.order = .dimsFirst

/-- A finite number that differs from `x` by at most `ε`. -/
def Near (A : Arith) (ε : ℝ) (a : A.carrier) (x : ℝ) : Prop := A.float.Fin a ∧ |A.float.val a - x| ≤ ε

end Arith

/-! ## Objects that differ in their numbers -/

section
variable {α β : Type} (R : α → β → Prop)

/-- The same dimensions, and related entries. -/
structure Matrix.Rel (M : Matrix α) (M' : Matrix β) : Prop where
  dim : M.dim = M'.dim
  vals : List.Forall₂ R M.vals M'.vals

structure Kernel.Rel (K : Kernel α) (K' : Kernel β) : Prop where
  dim : K.dim = K'.dim
  num : K.numFilters = K'.numFilters
  stride : K.stride = K'.stride
  weights : K.weights.Rel R K'.weights
  biases : K.biases.Rel R K'.biases
  wGrads : List.Forall₂ (Matrix.Rel R) K.wGrads K'.wGrads
  bGrads : List.Forall₂ (Matrix.Rel R) K.bGrads K'.bGrads

structure Connected.Rel (L : Connected α) (L' : Connected β) : Prop where
  weights : L.weights.Rel R L'.weights
  biases : L.biases.Rel R L'.biases
  inputDim : L.inputDim = L'.inputDim
  initialized : L.initialized = L'.initialized
  wGrads : List.Forall₂ (Matrix.Rel R) L.wGrads L'.wGrads
  bGrads : List.Forall₂ (Matrix.Rel R) L.bGrads L'.bGrads

inductive Body.Rel : Body α → Body β → Prop
  | kernel {K K'} (h : K.Rel R K') : Rel (.kernel K) (.kernel K')
  | pooling (P) : Rel (.pooling P) (.pooling P)
  | connected {L L'} (h : L.Rel R L') : Rel (.connected L) (.connected L')
  | activation (A) : Rel (.activation A) (.activation A)
  | softmax (S) : Rel (.softmax S) (.softmax S)

structure Layer.Rel (L : Layer α) (L' : Layer β) : Prop where
  name : L.name = L'.name
  body : L.body.Rel R L'.body

structure Model.Rel (M : Model α) (M' : Model β) : Prop where
  layers : List.Forall₂ (Layer.Rel R) M.layers M'.layers
  labels : M.labels = M'.labels
  softmax : M.softmax = M'.softmax
  kernels : M.kernels = M'.kernels
  poolings : M.poolings = M'.poolings
  connecteds : M.connecteds = M'.connecteds
  activations : M.activations = M'.activations

structure Sample.Rel (x : Sample α) (x' : Sample β) : Prop where
  data : x.data.Rel R x'.data
  label : x.label = x'.label

structure Hyper.Rel (p : Hyper α) (p' : Hyper β) : Prop where
  rate : R p.rate p'.rate
  batch : p.batch = p'.batch
  threads : p.threads = p'.threads
  epochs : p.epochs = p'.epochs

/-- The same schedule, and related samples. -/
def EpochRel (e : List (List Nat) × List (Sample α)) (e' : List (List Nat) × List (Sample β)) : Prop :=
  e.1 = e'.1 ∧ List.Forall₂ (Sample.Rel R) e.2 e'.2

end

/-! ## Networks -/

/-- The random numbers are not zero where they are still needed. -/
def Model.Drawn (d : Nat → Nat → ℝ) (M : Model ℝ) : Prop :=
  ∀ (i : Nat) (l : Layer ℝ) (L : Connected ℝ), M.layers[i]? = some l → l.body = .connected L → L.initialized = true ∨ ∀ n, d i n ≠ 0

/-- The windows of AVG layers have fewer than 2^31 cells. -/
def KindsAvg (ks : List LayerKind) : Prop := ∀ px py sx sy, LayerKind.pool .avg px py sx sy ∈ ks → px * py < 2147483648

/-- The layer compares no numbers (softmax does, but only for the largest value). -/
def Body.Smooth {α : Type} : Body α → Prop
  | .pooling P => P.type = .avg
  | .activation A => ∃ f, A = Activation.new f ∧ (f = .sigmoid ∨ f = .linear ∨ f = .tangent)
  | _ => True

def Model.Smooth {α : Type} (M : Model α) : Prop := ∀ (i : Nat) (l : Layer α), M.layers[i]? = some l → l.body.Smooth

/-- The same for the layers of a network. -/
def NetLayer.Even : NetLayer → Prop
  | .pool t px py _ _ => t = .avg ∧ px * py < 2147483648
  | .act f => f = .sigmoid ∨ f = .linear ∨ f = .tangent
  | _ => True

end Cnn
